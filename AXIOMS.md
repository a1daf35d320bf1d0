# Axioms each property theorem depends on

Generated by scripts/gen_axioms.py with `#print axioms`.

## `Classical.choice`, `Quot.sound`, `propext`

* `JP.C01.round_trip_partial`
* `JP.C01.text_determines_graph_partial`
* `JP.C54.round_trip_partial`
* `JP.C55.round_trip_partial`
* `JP.C55.trip_succeeds_partial`
* `JP.C02.keys_roundtrip_partial`
* `JP.C02.instance_keys_merge`
* `JP.C02.shared_instance_key`
* `JP.C03.colliding_keys_partial`
* `JP.C03.alias_damaged`
* `JP.C03.placeholder_left`
* `JP.C04.terminates_partial`
* `JP.C04.terminates_with_references`
* `JP.C04.terminates_without_references_partial`
* `JP.C04.terminates_max_depth_partial`
* `JP.C04.list_diverges`
* `JP.C04.enum_diverges`
* `JP.C05.references_in_range`
* `JP.C05.no_dangling_partial`
* `JP.C05.string_reduce_shifts`
* `JP.C05.singleton_dangling`
* `JP.C05.dropping_handler_shifts`
* `JP.C05.empty_kwargs_shift`
* `JP.C05.two_argument_lists_shift`
* `JP.C05.fields_shift`
* `JP.C06.encodes_itself`
* `JP.C06.decodes_itself`
* `JP.C06.plain_round_trip`
* `JP.C06.shared_not_itself`
* `JP.C07.only_leaking_tags_partial`
* `JP.C07.bytes_leak`
* `JP.C07.bytearray_leak`
* `JP.C07.type_leak`
* `JP.C07.newargs_leak`
* `JP.C07.iterator_leak`
* `JP.C08.only_user_code`
* `JP.C08.no_references`
* `JP.C08.user_code_can`
* `JP.C09.nothing_retained_partial`
* `JP.C09.cache_empty`
* `JP.C09.root_stays_cached`
* `JP.C09.swallowed_error_retains`
* `JP.C10.history_irrelevant`
* `JP.C10.history_irrelevant_diverges`
* `JP.C10.two_histories`
* `JP.C10.session_history_irrelevant`
* `JP.C11.b85_round_trip`
* `JP.C11.b64_undecodable`
* `JP.C11.b85_undecodable`
* `JP.C11.binary_round_trip`
* `JP.C11.undecodable_empty`
* `JP.C12.aliasing_partial`
* `JP.C12.set_alias_lost`
* `JP.C12.bytearray_alias_lost`
* `JP.C12.set_subclass_alias_kept`
* `JP.C13.depth_bound_partial`
* `JP.C13.depth_bound_dates_partial`
* `JP.C13.at_limit_repr`
* `JP.C13.cut_exactly`
* `JP.C13.cache_exceeds`
* `JP.C13.enum_exceeds`
* `JP.C13.swallowed_error_exceeds`
* `JP.C13.date_exceeds`
* `JP.C14.propagates`
* `JP.C17.returned_all_found`
* `JP.C17.surely_found`
* `JP.Registry.C19.get_type_spec`
* `JP.Registry.C19.lookup_unique`
* `JP.Backend.C20.encode_spec_partial`
* `JP.Backend.C20.decode_spec_partial`
* `JP.Pandas.C22.pandas_roundtrip`
* `JP.Pandas.C22.pandas_raises_iff`
* `JP.TagsPd.C23.tags_distinct_partial`
* `JP.C24.exclude_partial`
* `JP.C24.list_subclass_ignores_exclude`
* `JP.C25.dict_read_as_dict_partial`
* `JP.C25.instance_read_as_instance_partial`
* `JP.C25.reserved_key_dropped`
* `JP.C25.reserved_key_escaped`
* `JP.C25.b64_masquerades`
* `JP.C25.b64_masquerades_keys`
* `JP.C25.b64_attribute_masquerades`
* `JP.C26.unchanged_partial`
* `JP.C27.no_placeholder_partial`
* `JP.C27.paths_exist_partial`
* `JP.C27.ordered_dict_self`
* `JP.C27.list_subclass_in_reduce`
* `JP.C27.dict_in_reduce_keys`
* `JP.C27.dict_subclass_in_reduce`
* `JP.C27.newargs_self`
* `JP.C38.held_partial`
* `JP.C28.tolerant`
* `JP.C28.decode_tolerant`
* `JP.C28.repeated_elements`
* `JP.C29.rest_unchanged_limited`
* `JP.C29.limit_disturbed`
* `JP.C29.same_document`
* `JP.C29.objects_same`
* `JP.C29.without_saving`
* `JP.C30.factory_partial`
* `JP.C30.falsy_attribute_lost`
* `JP.C30.attribute_confuses_references`
* `JP.C30.lambda_factory_confuses_references`
* `JP.C31.recipe_delivered`
* `JP.C32.order_partial`
* `JP.C32.order_kept_partial`
* `JP.C32.keys_reorder`
* `JP.C32.escaped_reorder`
* `JP.Registry.C33.context_passed_iff`
* `JP.Registry.C33.context_call_ok`
* `JP.Numpy.C35.binary_roundtrip_partial`
* `JP.C36.pinned_partial`
* `JP.C36.bytes_not_pinned`
* `JP.C36.bytes_confused`
* `JP.C37.fresh`
* `JP.C37.old_unchanged`
* `JP.C37.no_sharing`
* `JP.C38.resolved_partial`
* `JP.C38.decode_resolved_partial`
* `JP.C38.no_placeholder_partial`
* `JP.C39.attributes_partial`
* `JP.C39.dunder_mangled`
* `JP.C39.tuple_attribute_lost`
* `JP.C39.equal_dict_lost`
* `JP.C39.base_slot_lost`
* `JP.C39.underscore_class_slot_lost`
* `JP.C40.state_delivered`
* `JP.C40.falsy_state_skipped`
* `JP.C40.tuple_state_skipped`
* `JP.C41.reads`
* `JP.C41.same_iff`
* `JP.C41.injective`
* `JP.Numpy.C35.view_roundtrip_partial`
* `JP.C43.module_written_partial`
* `JP.C43.module_round_trip_partial`
* `JP.C43.depth_zero`
* `JP.C44.same_document_partial`
* `JP.C44.agrees_partial`
* `JP.C45.finished_partial`
* `JP.C45.true_state_delivered`
* `JP.C45.falsy_state_dropped`
* `JP.C45.state_in_progress_dropped`
* `JP.C45.state_in_progress_delivered`
* `JP.C45.pair_state_raises`
* `JP.C45.newobj_called`
* `JP.C45.newobj_refused`
* `JP.C45.newobj_without_class`
* `JP.C46.state_becomes_attributes_partial`
* `JP.C46.state_in_progress_lost`
* `JP.C46.state_in_progress_half`
* `JP.C46.list_state_replaces`
* `JP.C47.raised`
* `JP.C47.not_raised`
* `JP.C52.uuid_roundtrip`
* `JP.C52.uuid_distinct`
* `JP.C52.uuid_upper`
* `JP.C53.sharing_matters`
* `JP.C54.large_limit_returns`
* `JP.C54.bound_above_depth`
* `JP.C55.list_keeps`
* `JP.C56.has_reduce_iff`
* `JP.C58.expands`
* `JP.C58.factory_registered`
* `JP.C58.own_dict_registered`
* `JP.C58.own_dict_first`
* `JP.C59.unread`
* `JP.C59.pruned`
* `JP.C59.fields`
* `JP.C60.same_partial`
* `JP.C60.same_back_partial`
* `JP.C60.method_encodes`
* `JP.C60.method_off`
* `JP.C60.raising`
* `JP.PandasTypes.C61.index_iff`
* `JP.PandasTypes.C61.period_index_iff`
* `JP.PandasTypes.C61.index_text_name`
* `JP.PandasTypes.C61.index_number_name`
* `JP.PandasTypes.C61.multi_roundtrip`
* `JP.PandasTypes.C61.multi_empty`
* `JP.PandasTypes.C61.tuples_become_multi`
* `JP.PandasTypes.C61.short_rows_filled`
* `JP.PandasTypes.C61.tuples_text_name`
* `JP.PandasTypes.C61.frame_iff`
* `JP.PandasTypes.C61.stamp_back`
* `JP.PandasTypes.C61.stamp_iff`
* `JP.PandasTypes.C61.interval_back`
* `JP.PandasTypes.C61.period_back`
* `JP.PandasTypes.C61.text_name`
* `JP.PandasTypes.C61.zone_lost`
* `JP.C62.frozen_same_or_raises`
* `JP.C62.frozen_raises_iff`
* `JP.C62.frozen_roundtrip`
* `JP.C62.mapping_twice`
* `JP.C62.frozen_cycle`
* `JP.C62.not_frozen_cycle`
* `JP.C62.immutable_twice`
* `JP.C63.negative_limit`
* `JP.C63.list_moves_numbers`
* `JP.C64.slot_dropped`
* `JP.C64.replaced_example`
* `JP.C64.method_in_list`
* `JP.C65.nested_encode`
* `JP.C66.same_document`
* `JP.C66.decode_same`
* `JP.C66.trip`
* `JP.C67.text_of`
* `JP.C67.nothing_to_sort`
* `JP.C67.encodes_plain`
* `JP.C67.one_text`
* `JP.C67.plain_trip`
* `JP.C67.canonical`
* `JP.C67.sort_ordered`
* `JP.C67.ordered_same`
* `JP.C68.written_out`
* `JP.C68.read_back`
* `JP.C68.finishes_iff`
* `JP.C68.refused`
* `JP.C69.written`
* `JP.C69.read`
* `JP.C69.comes_back`
* `JP.C70.left_over`
* `JP.C70.gmpy_undone`
* `JP.C70.numpy_left`
* `JP.C70.pandas_left`
* `JP.C72.same_text_again`
* `JP.C72.rounds`
* `JP.C73.same_text`
* `JP.C73.text_iff`
* `JP.C74.std_objects`
* `JP.C77.terminates`
* `JP.C77.linear`
* `JP.C77.linear_document`
* `JP.C77.exponential`
* `JP.C77.not_linear`
* `JP.C78.exponential_without_references`
* `JP.C80.same`
* `JP.C80.reported`
* `JP.C80.complete`
* `JP.C80.complete_text`
* `JP.C80.lambda_twice`
* `JP.C80.silent_lambda`
* `JP.C80.silent_function`
* `JP.C80.silent_cycle`
* `JP.C80.str_raises`
* `JP.C81.instance_iff`
* `JP.C82.no_refs`
* `JP.C82.round_trip`
* `JP.C82.numbering`
* `JP.C82.never_dict`
* `JP.C82.differs`
* `JP.C83.back`
* `JP.C83.roundtrip_iff`
* `JP.C83.record_lost`
* `JP.C83.subarray_raises`
* `JP.C83.nested_record_raises`
* `JP.C83.trailing`
* `JP.DTypeText.literalEval_repr`
* `JP.C85.unfolds`
* `JP.C85.isomorphic_iff`
* `JP.C86.keys_irrelevant`
* `JP.C86.base85_irrelevant`
* `JP.C86.max_iter_irrelevant`
* `JP.C86.fail_safe_irrelevant`
* `JP.C86.mixed_keys`
* `JP.C86.swallowed_exceptions`
* `JP.PandasOld.C87.old_frame`
* `JP.PandasOld.C87.blank_frame`
* `JP.C88.list_value`
* `JP.C88.list_error`
* `JP.C88.tuple_value`
* `JP.C88.tuple_error`
* `JP.C88.tuple_type_error`
* `JP.C88.dict_value`
* `JP.C88.dict_error`
* `JP.C89.context`
* `JP.C89.met`
* `JP.C89.list_value`
* `JP.C89.list_error`
* `JP.C89.tuple_value`
* `JP.C89.tuple_error`
* `JP.C89.set_value`
* `JP.C89.set_error`
* `JP.C89.needs_apart`
* `JP.C90.dtype_back`
* `JP.C90.scalar_back`
* `JP.C90.scalar_result`
* `JP.C91.frozen_twin`
* `JP.C91.mapping_result`
* `JP.C91.immutable_result`
* `JP.C92.same_names`
* `JP.C92.own_letter_partial`
* `JP.C92.category_agrees`
* `JP.C92.tags_differ`
* `JP.C93.cuts`
* `JP.C93.ends`
* `JP.C93.returns`
* `JP.C93.unshared`
* `JP.C93.ring_depends_on_order`

## `propext`

* `JP.C02.stringsFirst_perm`
* `JP.C03.escaped_key_injective`
* `JP.C09.flatten_history`
* `JP.C10.bookkeeping_irrelevant`
* `JP.Registry.C19.register_nontype`
* `JP.Registry.C19.stale_base_handler`
* `JP.Registry.C19.name_shared`
* `JP.Pandas.C21.rle_roundtrip`
* `JP.Pandas.C22.pandas_no_compression_raises`
* `JP.C27.dict_in_reduce`
* `JP.C29.numbering_unchanged`
* `JP.C31.recipe_written`
* `JP.LoadClass.C18.translate_idempotent`
* `JP.LoadClass.C18.untranslate_translate_partial`
* `JP.LoadClass.C18.untranslate_translate_iff`
* `JP.C36.pinned_initially`
* `JP.C39.class_attributes_written`
* `JP.C41.surrogates_merge`
* `JP.C41.short_escape_read`
* `JP.LoadClass.C18.loadmodule_fails`
* `JP.LoadClass.C18.rebound_submodule`
* `JP.C45.steps_unique`
* `JP.C51.withTz_self`
* `JP.C51.fold_lost`
* `JP.C51.none_is_no_zone`
* `JP.C52.is_safe_lost`
* `JP.C56.none_counts`
* `JP.C56.false_ignored`
* `JP.PandasTypes.C61.equal_columns`
* `JP.PandasTypes.C61.series_iff`
* `JP.PandasTypes.C61.dtype_lost`
* `JP.C64.object_raises`
* `JP.C65.name_ignored`
* `JP.C65.module_name`
* `JP.C65.rest_ignored`
* `JP.C65.right_iff`
* `JP.C65.unknown_module`
* `JP.C65.attribute_raises`
* `JP.C66.other_separators`
* `JP.C66.other_indent`
* `JP.C67.same`
* `JP.C67.own_dict_sorted`
* `JP.C67.two_texts`
* `JP.C73.without_references`
* `JP.C74.flatten_uuid`
* `JP.C74.flatten_lock`
* `JP.C74.flatten_regex`
* `JP.C74.flatten_queue`
* `JP.C74.restore_uuid`
* `JP.C74.restore_lock`
* `JP.C74.restore_regex`
* `JP.C75.safe_calls_named_functions`
* `JP.C75.through_global_list`
* `JP.C75.unsafe_runs_code`
* `JP.C79.keys_ignored`
* `JP.C79.bool_key`
* `JP.C79.nan_key`
* `JP.C79.twice`
* `JP.C81.claims_refused`
* `JP.C85.nan_merged`
* `JP.C90.dtype_refused`
* `JP.C90.scalar_raises`
* `JP.C91.accepted_lost`
* `JP.C91.same_object`

## `Quot.sound`, `propext`

* `JP.C03.escaped_key_read_back`
* `JP.C03.escaped_key_not_tag`
* `JP.C06.json_key_not_itself`
* `JP.C10.without_reset`
* `JP.C10.classes_forgotten`
* `JP.C10.classes_stay`
* `JP.C10.registered`
* `JP.C11.b64_round_trip`
* `JP.C11.b64_standard`
* `JP.C14.absorbs`
* `JP.C14.encode_absorbs`
* `JP.C14.replaced`
* `JP.C15.reads_at_most`
* `JP.C15.first_items`
* `JP.C16.restore_never_evaluates`
* `JP.C16.decode_never_evaluates`
* `JP.C16.unsafe_evaluates`
* `JP.C17.missing_surfaces`
* `JP.C17.entry_recorded`
* `JP.C17.entry_raises`
* `JP.C17.ignored_is_raw`
* `JP.LoadClass.C18.loadclass_finds_partial`
* `JP.LoadClass.C18.loadclass_finds_toplevel`
* `JP.LoadClass.C18.method_found_partial`
* `JP.LoadClass.C18.classes_precedence`
* `JP.LoadClass.C18.unresolvable_is_none`
* `JP.LoadClass.C18.undotted_is_none`
* `JP.LoadClass.C18.registerClasses_spec`
* `JP.Registry.C19.get_name_spec`
* `JP.Backend.C20.preferred_first`
* `JP.Backend.C20.removed_never_used`
* `JP.Backend.C20.double_load_then_remove`
* `JP.Backend.C20.double_load_breaks_decode`
* `JP.Backend.C20.decode_uncaught_error`
* `JP.Pandas.C21.rle_canonical`
* `JP.Pandas.C21.rle_unique`
* `JP.Pandas.C22.pandas_roundtrip_text`
* `JP.TagsPd.C23.tags_names`
* `JP.TagsPd.C23.tag_collision`
* `JP.TagsPd.C23.date_tags`
* `JP.TagsPd.C23.tags_collide`
* `JP.TagsPd.C23.tags_raise`
* `JP.C26.attribute_overwritten`
* `JP.C26.method_shadowed`
* `JP.C26.own_item_overwrites`
* `JP.C26.attributes_reordered`
* `JP.C26.key_reordered`
* `JP.C26.iterator_consumed`
* `JP.C27.attribute_instead`
* `JP.C28.other_tags_raise`
* `JP.C28.malformed_key_raises`
* `JP.C29.rest_unchanged`
* `JP.C29.values_not_read`
* `JP.C31.pad_trim`
* `JP.C31.trim_minimal`
* `JP.C31.recipe_in_document`
* `JP.C31.trimming_unseen`
* `JP.C31.recipe_used`
* `JP.Registry.C33.context_clash`
* `JP.Numpy.C35.text_iff`
* `JP.Numpy.C35.slice_elem`
* `JP.Numpy.C35.text_roundtrip_partial`
* `JP.Numpy.C35.zero_dim_becomes_one_dim`
* `JP.Numpy.C35.text_loses_byteorder`
* `JP.Numpy.C35.noncontiguous_permuted`
* `JP.C37.global_object_shared`
* `JP.C38.forward_given_up`
* `JP.C38.hidden_leaks`
* `JP.C38.tuple_leaks`
* `JP.C38.keys_leaks`
* `JP.C38.root_leaks`
* `JP.C38.negative_counts_back`
* `JP.C40.state_written`
* `JP.C40.state_in_document`
* `JP.C40.state_used`
* `JP.C41.escape_written`
* `JP.C41.escape_read`
* `JP.Numpy.C35.struct_byteorder_lost`
* `JP.Numpy.C35.fortran_view_wrong`
* `JP.Numpy.C35.foreign_base_view_wrong`
* `JP.Numpy.C35.bytes_base_view_wrong`
* `JP.LoadClass.C18.loadmodule_roundtrip_partial`
* `JP.LoadClass.C18.loadmodule_iff`
* `JP.LoadClass.C18.loadmodule_breaks`
* `JP.C43.module_read`
* `JP.C44.dict_entry_dropped`
* `JP.C44.child_attribute_dropped`
* `JP.C48.no_influence`
* `JP.C48.empty_state_ignored`
* `JP.C49.no_influence`
* `JP.C50.dict_as_text`
* `JP.C51.datetime_roundtrip`
* `JP.C51.bad_payload`
* `JP.C52.array_roundtrip`
* `JP.C52.array_range`
* `JP.C52.regex_roundtrip`
* `JP.C52.lock_roundtrip`
* `JP.C53.same_document`
* `JP.C53.same_documents`
* `JP.C54.large_limit`
* `JP.C55.same_as_stripped`
* `JP.C56.not_considered`
* `JP.C56.struct_time`
* `JP.C56.list_like_ignored`
* `JP.C56.slots_text`
* `JP.C57.has_method_iff`
* `JP.C57.own_function_ignored`
* `JP.C57.own_getstate_iff`
* `JP.C57.subclass_same`
* `JP.C57.has_method_class_iff`
* `JP.C57.own_method_iff`
* `JP.C58.levels_irrelevant`
* `JP.C59.property_unread`
* `JP.C60.off`
* `JP.C60.method_breaks`
* `JP.PandasTypes.C61.not_text`
* `JP.PandasTypes.C61.capital_lost`
* `JP.PandasTypes.C61.nullable_lost`
* `JP.C62.unhashable_key`
* `JP.C63.tuple_wraps`
* `JP.C63.tuple_raises`
* `JP.C63.set_wraps`
* `JP.C63.tuples_wrap`
* `JP.C63.shift`
* `JP.C63.unlimited`
* `JP.C64.quiet`
* `JP.C64.dict_raises`
* `JP.C64.dict_replaced`
* `JP.C64.list_keeps`
* `JP.C64.methods_left_out`
* `JP.C64.method_dropped`
* `JP.C64.taken_for_function`
* `JP.C65.singleton`
* `JP.C65.nested_wrong`
* `JP.C66.encode_same`
* `JP.C66.minus_indent`
* `JP.C67.slots_refused`
* `JP.C67.slots_accepted`
* `JP.C67.reference_moves`
* `JP.C67.root_attributes`
* `JP.C67.inner_attributes`
* `JP.C69.second_is_list`
* `JP.C70.lookup_after`
* `JP.C70.datetime_kept`
* `JP.C70.index_subclass`
* `JP.Backend.C71.encoder_options`
* `JP.Backend.C71.decoder_options`
* `JP.Backend.C71.options_gone`
* `JP.Backend.C71.start_options`
* `JP.C74.flatten_date`
* `JP.C74.flatten_array`
* `JP.C74.restore_date`
* `JP.C74.restore_array`
* `JP.C75.only_named`
* `JP.C75.decode_only_named`
* `JP.C75.returned`
* `JP.C75.inert`
* `JP.C75.imports_prefixes`
* `JP.C76.same`
* `JP.C76.decode_same`
* `JP.C76.other_handler`
* `JP.C76.other_class`
* `JP.C76.named_handler_matters`
* `JP.C76.unsafe_differs`
* `JP.C78.linear`
* `JP.C78.linear_data`
* `JP.C78.exponential`
* `JP.C79.same`
* `JP.C79.same_text`
* `JP.C79.int_key`
* `JP.C81.special_iff`
* `JP.C81.function_iff`
* `JP.C81.type_iff`
* `JP.C81.refused_iff`
* `JP.C81.decimal_iff`
* `JP.C81.picklable_iff`
* `JP.C81.primitive_iff`
* `JP.C81.iterator_iff`
* `JP.C81.rest_eq`
* `JP.C82.same`
* `JP.C82.decodes_iff`
* `JP.C84.seen`
* `JP.C84.right_iff`
* `JP.C84.classes`
* `JP.C84.same_context`
* `JP.C84.read_first`
* `JP.C84.nested_encode`
* `JP.C85.unfolding_unique`
* `JP.C85.cycle_cut`
* `JP.PandasOld.C87.reader`
* `JP.PandasOld.C87.undecodable`
* `JP.PandasOld.C87.dtype_read`
* `JP.PandasOld.C87.example_frame`
* `JP.C88.no_placeholders`
* `JP.C88.needs_condition`
* `JP.C89.alone`
* `JP.C90.ufunc_back`
* `JP.C90.mpz_back`
* `JP.C90.tag_kept`
* `JP.C90.tag_kept_scalar`
* `JP.C91.plain_result`
* `JP.C91.frozen_result`
* `JP.C91.frozen_private`
* `JP.C91.underscore`
* `JP.C91.readonly_result`
* `JP.C91.readonly_raises`
* `JP.C92.all_subclasses_iff`
* `JP.C92.all_subclasses_ends`
* `JP.C92.numpy_types_partial`
* `JP.C92.column_partial`
* `JP.C92.values_damaged`
* `JP.C93.levels_irrelevant`

## none

* `JP.LoadClass.C18.no_module`
* `JP.LoadClass.C18.shadowed_by_submodule`
* `JP.LoadClass.C18.foreign_import_error_propagates`
* `JP.TagsPd.C23.split_parts`
* `JP.LoadClass.C18.exceptions_module_lost`
* `JP.C51.iso_text`
* `JP.C52.regex_bytes`
* `JP.C52.queue_emptied`
* `JP.C57.none_getstate`
* `JP.C81.dead`
* `JP.C81.claims_function`
* `JP.C81.claims_list`
* `JP.C90.unpickleable_raises`
