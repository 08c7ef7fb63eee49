# Axioms of the claimed theorems

Output of `#print axioms`.

* `PC.Union.smart_union_best_partial`: propext, Classical.choice, Quot.sound
* `PC.Union.smart_union_sound`: propext, Quot.sound
* `PC.Union.smart_union_accepts_iff`: propext, Quot.sound
* `PC.Union.smart_union_first_exact_wins`: propext, Quot.sound
* `PC.Union.smart_union_propagates`: propext, Quot.sound
* `PC.Union.attempts_independent`: propext
* `PC.Union.smart_union_mixed_not_best`: propext, Classical.choice, Quot.sound
* `PC.Union.left_to_right_first`: propext
* `PC.Union.left_to_right_accepts`: propext, Quot.sound
* `PC.Union.left_to_right_ignores_later`: propext
* `PC.Union.smart_union_errors`: propext, Quot.sound
* `PC.Union.left_to_right_errors`: propext, Quot.sound
* `PC.Union.tagged_union_dispatch`: propext, Classical.choice, Quot.sound
* `PC.Union.tagged_union_other_members_irrelevant`: propext
* `PC.Guard.tracking_restored_partial`: propext, Classical.choice, Quot.sound
* `PC.Guard.guard_leaks_after_depth`: propext, Quot.sound
* `PC.Guard.guard_depth_leaks_on_saturating_platforms`: propext, Quot.sound
* `PC.Guard.cycle_detection_exact_partial`: propext, Classical.choice, Quot.sound
* `PC.Guard.guard_never_panics`: propext, Classical.choice, Quot.sound
* `PC.Guard.nesting_bounded`: propext, Classical.choice, Quot.sound
* `PC.Engine.python_validation_ends`: propext, Classical.choice, Quot.sound
* `PC.Engine.finite_validation_ends`: propext, Classical.choice, Quot.sound
* `PC.Engine.json_recursion_may_not_end`: propext, Quot.sound
* `PC.Lookup.lookup_dict_first`: propext, Classical.choice, Quot.sound
* `PC.Lookup.lookup_dict_raises`: propext, Classical.choice, Quot.sound
* `PC.Lookup.lookup_mapping_first`: propext, Classical.choice, Quot.sound
* `PC.Lookup.lookup_attr_first`: propext, Classical.choice, Quot.sound
* `PC.Lookup.lookup_kwargs_first`: propext
* `PC.Lookup.lookup_by_nothing`: none
* `PC.Lookup.lookup_by_something`: propext, Quot.sound
* `PC.Lookup.json_python_lookup_agree`: propext, Classical.choice, Quot.sound
* `PC.Lookup.json_last_key_wins`: propext, Quot.sound
* `PC.Fields.model_output_field`: propext, Classical.choice, Quot.sound
* `PC.Fields.model_output_declared`: propext, Classical.choice, Quot.sound
* `PC.Fields.typed_dict_output`: propext, Classical.choice, Quot.sound
* `PC.Fields.typed_dict_required_partial`: propext, Classical.choice, Quot.sound
* `PC.Fields.typed_dict_required_lost`: propext
* `PC.LaxRetry.answer_exists`: propext, Classical.choice, Quot.sound
* `PC.LaxRetry.never_wrongly_yes`: propext, Quot.sound
* `PC.LaxRetry.first_answer`: propext, Quot.sound
* `PC.LaxRetry.every_answer_partial`: propext, Quot.sound
* `PC.LaxRetry.answer_stays`: propext, Quot.sound
* `PC.LaxRetry.history_matters`: propext, Quot.sound
* `PC.Naming.name_exists`: propext, Classical.choice, Quot.sound
* `PC.Naming.name_short`: propext, Quot.sound
* `PC.Naming.name_full_partial`: propext, Quot.sound
* `PC.Naming.name_stays`: propext, Quot.sound
* `PC.Naming.name_history`: propext, Quot.sound
* `PC.LaxRetry.no_waiting`: propext, Quot.sound
* `PC.LaxRetry.one_computation`: propext, Classical.choice, Quot.sound
* `PC.LaxRetry.cached_once`: propext, Classical.choice, Quot.sound
* `PC.LaxRetry.threads_never_wrongly_yes`: propext, Quot.sound
* `PC.LaxRetry.alone_is_ask`: propext, Quot.sound
* `PC.LaxRetry.threads_spoil`: propext, Quot.sound
* `PC.Settings.settings_rule`: propext, Quot.sound
* `PC.Settings.first_entry_decides`: propext
* `PC.Settings.first_length_decides`: propext
* `PC.Settings.extra_rule`: propext
* `PC.Settings.none_hides_config`: propext
* `PC.Settings.outer_config_ignored`: propext
* `PC.Settings.same_settings_partial`: propext
* `PC.Settings.typed_dict_settings_differ`: propext
* `PC.Settings.model_and_fields_agree_partial`: propext
* `PC.Settings.model_and_fields_differ`: propext
* `PC.Settings.definition_changes_settings`: propext
* `PC.Cause.cause_exact`: propext, Classical.choice, Quot.sound
* `PC.Cause.notes_exact`: propext, Classical.choice, Quot.sound
* `PC.Cause.cause_off`: propext, Classical.choice, Quot.sound
* `PC.Cause.two_notes`: propext, Classical.choice, Quot.sound
* `PC.Cause.notes_pile_up`: propext, Classical.choice, Quot.sound
* `PC.In.lax_int_iff`: propext, Classical.choice, Quot.sound
* `PC.In.lax_bool_iff`: propext, Classical.choice, Quot.sound
* `PC.In.lax_str_iff`: propext, Quot.sound
* `PC.In.lax_float_iff`: propext, Quot.sound
* `PC.In.lax_bytes_iff`: propext
* `PC.In.lax_errors`: propext, Classical.choice, Quot.sound
* `PC.In.strings_as_lax_text`: propext, Classical.choice, Quot.sound
* `PC.Time.date_iff`: propext, Quot.sound
* `PC.Time.time_iff`: propext, Quot.sound
* `PC.Time.datetime_iff`: propext, Quot.sound
* `PC.Time.timedelta_iff`: propext, Quot.sound
* `PC.Time.duration_to_delta_iff`: propext, Classical.choice, Quot.sound
* `PC.Time.subclass_length`: propext, Classical.choice, Quot.sound
* `PC.Time.datetime_from_date_text`: propext, Quot.sound
* `PC.Time.temporal_errors`: propext
* `PC.Time.temporal_json_errors`: propext
* `PC.TagLookup.serializer_choice_iff`: propext, Classical.choice, Quot.sound
* `PC.TagLookup.serializer_choice_none`: propext, Classical.choice, Quot.sound
* `PC.TagLookup.same_choice_partial`: propext, Classical.choice, Quot.sound
* `PC.TagLookup.tag_iff`: none
* `PC.TagLookup.tag_as_validated`: propext
* `PC.TagLookup.serialized_by_its_choice_partial`: propext, Classical.choice, Quot.sound
* `PC.TagLookup.unknown_tag_silent`: propext, Classical.choice, Quot.sound
* `PC.TagLookup.no_tag_warns`: propext
* `PC.TagLookup.int_and_text_keys_collide`: propext, Classical.choice, Quot.sound
* `PC.TagLookup.equal_tag_not_found`: propext, Classical.choice, Quot.sound
* `PC.TagLookup.function_none_and_raise`: propext, Classical.choice, Quot.sound
* `PC.Report.field_reads_iff`: propext, Classical.choice, Quot.sound
* `PC.Report.known_error_iff`: propext, Classical.choice, Quot.sound
* `PC.Report.known_error_refused`: propext, Classical.choice, Quot.sound
* `PC.Report.message_by_input`: propext, Classical.choice, Quot.sound
* `PC.Report.line_fails_iff`: propext, Classical.choice, Quot.sound
* `PC.Report.json_fails_iff`: propext, Classical.choice, Quot.sound
* `PC.Pat.compile_iff`: propext, Classical.choice, Quot.sound
* `PC.Pat.compiled_ignores_engine`: propext, Classical.choice, Quot.sound
* `PC.Pat.unknown_engine_refused`: propext, Classical.choice, Quot.sound
* `PC.Pat.buildPattern_iff`: propext, Classical.choice, Quot.sound
* `PC.Pat.string_outcome_iff`: propext, Classical.choice, Quot.sound
* `PC.Pat.string_schema_iff`: propext, Classical.choice, Quot.sound
* `PC.Pat.broken_text_iff`: propext, Classical.choice, Quot.sound
* `PC.Pat.text_means_itself_partial`: propext, Classical.choice, Quot.sound
* `PC.Pat.enum_pattern`: propext, Classical.choice, Quot.sound
* `PC.Pat.wrong_engine_unnoticed`: propext, Classical.choice, Quot.sound
* `PC.Pat.trivial_bound_refuses`: propext, Classical.choice, Quot.sound
* `PC.Fields.fields_set_exact`: propext, Classical.choice, Quot.sound
* `PC.Fields.fields_set_allow`: propext, Classical.choice, Quot.sound
* `PC.Fields.fields_set_contains_defaulted`: propext
* `PC.Fields.fields_set_counted`: propext, Classical.choice, Quot.sound
* `PC.LazyWarn.call_exact`: propext, Quot.sound
* `PC.LazyWarn.call_stops`: propext, Quot.sound
* `PC.LazyWarn.error_mode_never_recovers`: propext, Quot.sound
* `PC.LazyWarn.warnings_repeat`: propext, Quot.sound
* `PC.LazyWarn.silent_without_warnings`: propext, Quot.sound
* `PC.LazyWarn.jsonLoop_exact`: propext
* `PC.LazyWarn.json_warns_once`: propext, Quot.sound
* `PC.LazyWarn.second_item_lost`: propext
* `PC.Computed.python_asks_once`: propext
* `PC.Computed.jsonLoop_iff`: propext, Quot.sound
* `PC.Computed.json_run_iff`: propext, Quot.sound
* `PC.Computed.json_asks_twice`: propext
* `PC.Computed.pure_agrees`: propext, Quot.sound
* `PC.Computed.round_trip_asks_none`: propext
* `PC.Computed.null_despite_exclude_none`: propext
* `PC.FromAttr.applicable_iff`: propext, Classical.choice, Quot.sound
* `PC.FromAttr.read_as_iff`: propext, Classical.choice, Quot.sound
* `PC.FromAttr.not_read_error`: propext, Classical.choice, Quot.sound
* `PC.FromAttr.not_read_model_error`: propext, Classical.choice, Quot.sound
* `PC.FromAttr.strict_only_refuses_partial`: propext, Classical.choice, Quot.sound
* `PC.FromAttr.strict_reads_mapping_by_attributes`: propext
* `PC.FromAttr.attributes_give_no_extras`: propext, Classical.choice, Quot.sound
* `PC.FromAttr.forbid_not_enforced`: propext
* `PC.FromAttr.pair_prefers_dict`: propext
* `PC.BuildErr.built_iff_sound`: propext
* `PC.BuildErr.error_iff_first_wrong`: propext, Classical.choice, Quot.sound
* `PC.BuildErr.schema_error_unless_no_schema`: propext, Classical.choice, Quot.sound
* `PC.BuildErr.report_text`: propext, Quot.sound
* `PC.BuildErr.no_type_alone_and_inside`: propext, Classical.choice, Quot.sound
* `PC.SerSet.python_accepts_iff`: propext, Quot.sound
* `PC.SerSet.python_set_of_different`: propext, Quot.sound
* `PC.SerSet.json_mode_list`: none
* `PC.SerSet.to_json_array`: none
* `PC.SerSet.same_items_partial`: propext, Quot.sound
* `PC.SerSet.other_kind_inferred`: none
* `PC.SerSet.items_merged`: propext
* `PC.SerSet.set_of_models_raises`: none
* `PC.ExclDefault.compares_iff`: none
* `PC.ExclDefault.dropped_iff`: propext
* `PC.ExclDefault.all_kept`: propext
* `PC.ExclDefault.restored_partial`: propext, Classical.choice, Quot.sound
* `PC.ExclDefault.default_replaces_equal`: propext
* `PC.ExclDefault.inside_function_lost`: propext
* `PC.ExclDefault.factory_gives_another`: propext
* `PC.ExclDefault.default_written`: propext
* `PC.SerConfig.written_iff`: propext, Classical.choice, Quot.sound
* `PC.SerConfig.built_iff`: propext, Quot.sound
* `PC.SerConfig.leafMode_iff`: propext, Quot.sound
* `PC.SerConfig.modes_iff`: propext
* `PC.SerConfig.typed_dict_config_ignored`: propext
* `PC.SerConfig.to_json_modes`: propext
* `PC.SerConfig.any_field_not_in_scope`: propext
* `PC.SerConfig.same_instance_elsewhere`: propext
* `PC.SerConfig.own_config_does_not_govern`: propext
* `PC.SerConfig.typed_dict_config_lost`: propext
* `PC.SerConfig.defaults_differ`: propext
* `PC.SerConfig.wrong_mode_unnoticed`: propext, Classical.choice, Quot.sound
* `PC.DupKeys.lookup_agrees`: propext, Classical.choice, Quot.sound
* `PC.DupKeys.dict_exact`: propext
* `PC.DupKeys.dict_accepts_iff`: propext, Classical.choice, Quot.sound
* `PC.DupKeys.dict_same_partial`: propext, Classical.choice, Quot.sound
* `PC.DupKeys.dict_errors_kept`: propext, Quot.sound
* `PC.DupKeys.model_ignore_same`: propext, Classical.choice, Quot.sound
* `PC.DupKeys.model_forbid_accepts`: propext, Classical.choice, Quot.sound
* `PC.DupKeys.model_errors`: propext, Quot.sound
* `PC.DupKeys.model_allow_same_partial`: propext, Classical.choice, Quot.sound
* `PC.DupKeys.keys_same_iff`: propext, Quot.sound
* `PC.DupKeys.replaced_value_refused`: propext
* `PC.DupKeys.merged_keys_differ`: propext
* `PC.DupKeys.dict_not_as_python`: propext
* `PC.DupKeys.model_not_as_python`: propext
* `PC.Lit.text_bool`: propext, Classical.choice, Quot.sound
* `PC.Lit.text_as_python_partial`: propext, Classical.choice, Quot.sound
* `PC.Lit.text_as_python_iff`: propext, Classical.choice, Quot.sound
* `PC.Lit.text_int_refused`: propext, Classical.choice, Quot.sound
* `PC.Lit.enum_text_any_mode`: propext, Classical.choice, Quot.sound
* `PC.Lit.int_enum_text`: propext, Classical.choice, Quot.sound
* `PC.Lit.listed_text_taken_for_bool`: propext, Classical.choice, Quot.sound
* `PC.Lit.text_not_as_python`: propext, Classical.choice, Quot.sound
* `PC.TextUnion.union_picks`: propext, Classical.choice, Quot.sound
* `PC.TextUnion.strings_first`: propext, Classical.choice, Quot.sound
* `PC.TextUnion.key_given_to_str`: propext, Classical.choice, Quot.sound
* `PC.TextUnion.key_any_mode`: propext, Classical.choice, Quot.sound
* `PC.TextUnion.value_as_key_partial`: propext, Classical.choice, Quot.sound
* `PC.TextUnion.date_as_key`: propext, Classical.choice, Quot.sound
* `PC.TextUnion.int_in_strings`: propext, Classical.choice, Quot.sound
* `PC.TextUnion.strict_key_converted`: propext, Classical.choice, Quot.sound
* `PC.TextUnion.not_same_everywhere`: propext, Classical.choice, Quot.sound
* `PC.Fields.model_errors_ignore`: propext, Quot.sound
* `PC.Fields.model_errors_forbid`: propext, Quot.sound
* `PC.Fields.model_errors_allow`: propext, Quot.sound
* `PC.Fields.model_field_raises`: propext, Quot.sound
* `PC.Fields.not_a_model`: propext
* `PC.Fields.iteration_error_hides_field_errors`: propext
* `PC.Fields.typed_dict_errors_ignore`: propext, Quot.sound
* `PC.Fields.typed_dict_errors_forbid`: propext, Quot.sound
* `PC.Fields.typed_dict_errors_allow`: propext, Quot.sound
* `PC.Fields.typed_dict_field_raises`: propext, Quot.sound
* `PC.Fields.typed_dict_required_lost`: propext
* `PC.SerErr.to_json_raises`: propext, Classical.choice, Quot.sound
* `PC.SerErr.to_json_class`: propext, Classical.choice, Quot.sound
* `PC.SerErr.to_json_ends`: propext, Classical.choice, Quot.sound
* `PC.SerErr.to_python_raises`: propext, Classical.choice, Quot.sound
* `PC.SerErr.to_python_same`: propext, Classical.choice, Quot.sound
* `PC.SerErr.to_json_unknown`: propext, Classical.choice, Quot.sound
* `PC.SerErr.to_python_unknown`: propext, Classical.choice, Quot.sound
* `PC.SerErr.same_unknown_partial`: propext, Classical.choice, Quot.sound
* `PC.SerErr.to_json_mismatch`: propext, Classical.choice, Quot.sound
* `PC.SerErr.to_python_mismatch`: propext, Classical.choice, Quot.sound
* `PC.SerErr.unexpected_says`: propext, Classical.choice, Quot.sound
* `PC.SerErr.unexpected_empty`: propext, Classical.choice, Quot.sound
* `PC.SerErr.not_same_raised`: propext, Classical.choice, Quot.sound
* `PC.SerErr.marker_name`: propext, Classical.choice, Quot.sound
* `PC.WarnMode.none_mode`: propext, Classical.choice, Quot.sound
* `PC.WarnMode.error_mode`: propext, Classical.choice, Quot.sound
* `PC.WarnMode.warn_mode`: propext, Classical.choice, Quot.sound
* `PC.WarnMode.only_warns_partial`: propext, Classical.choice, Quot.sound
* `PC.WarnMode.returned_same_partial`: propext, Classical.choice, Quot.sound
* `PC.WarnMode.warn_same`: propext, Classical.choice, Quot.sound
* `PC.WarnMode.warn_issued`: propext, Classical.choice, Quot.sound
* `PC.WarnMode.issued_repeatedly`: propext, Classical.choice, Quot.sound
* `PC.WarnMode.error_mode_swallowed`: propext, Classical.choice, Quot.sound
* `PC.WarnMode.nul_raises`: propext, Classical.choice, Quot.sound
* `PC.Fields.extra_ignored`: propext, Quot.sound
* `PC.Fields.extra_forbidden_iff`: propext, Quot.sound
* `PC.Fields.extra_allowed_kept`: propext, Classical.choice, Quot.sound
* `PC.Fields.extra_allowed_validated`: propext, Classical.choice, Quot.sound
* `PC.Fields.extra_omit_escapes`: propext
* `PC.Fields.typed_dict_extra_ignored`: propext, Quot.sound
* `PC.Fields.typed_dict_errors_forbid`: propext, Quot.sound
* `PC.Fields.typed_dict_errors_allow`: propext, Quot.sound
* `PC.Fields.extra_never_replaces_field`: propext, Classical.choice, Quot.sound
* `PC.Fields.typed_dict_field_kept_partial`: propext, Classical.choice, Quot.sound
* `PC.Fields.typed_dict_extra_replaces_field`: propext
* `PC.Fields.assignment_atomic`: propext
* `PC.Fields.frozen_model_rejects`: propext
* `PC.Fields.frozen_field_rejects`: propext, Quot.sound
* `PC.Fields.unknown_attribute_rejects`: propext, Quot.sound
* `PC.Fields.assignment_touches_one`: propext, Quot.sound
* `PC.Fields.assignment_touches_one_partial`: propext, Quot.sound
* `PC.Fields.assignment_touches_others`: propext
* `PC.Fields.assignment_moves_to_extra`: propext
* `PC.Fields.root_assignment`: propext, Quot.sound
* `PC.Coll.list_accepts_iff`: propext, Classical.choice, Quot.sound
* `PC.Coll.list_errors`: propext, Classical.choice, Quot.sound
* `PC.Coll.list_other_errors`: propext, Classical.choice, Quot.sound
* `PC.Coll.list_iteration_error`: propext, Classical.choice, Quot.sound
* `PC.Coll.empty_rejection_drops_item`: propext
* `PC.Coll.list_accepts_iff`: propext, Classical.choice, Quot.sound
* `PC.Coll.count_is_output_length`: propext, Quot.sound
* `PC.Coll.list_too_long`: propext, Classical.choice, Quot.sound
* `PC.Coll.list_too_short`: propext, Classical.choice, Quot.sound
* `PC.Coll.lookahead_refines`: propext
* `PC.Coll.list_examines_partial`: propext, Quot.sound
* `PC.Coll.list_pulls_one_more`: propext
* `PC.Coll.untyped_list_bounds`: propext, Classical.choice, Quot.sound
* `PC.Coll.set_accepts_iff`: propext, Classical.choice, Quot.sound
* `PC.Coll.set_too_long`: propext, Classical.choice, Quot.sound
* `PC.Coll.dict_accepts_iff`: propext, Classical.choice, Quot.sound
* `PC.Coll.list_fail_fast_verdict`: propext, Classical.choice, Quot.sound
* `PC.Coll.list_fail_fast_errors`: propext, Classical.choice, Quot.sound
* `PC.Coll.set_fail_fast_verdict`: propext, Classical.choice, Quot.sound
* `PC.Coll.tuple_fail_fast_verdict`: propext, Classical.choice, Quot.sound
* `PC.Coll.list_partial_accepts`: propext, Classical.choice, Quot.sound
* `PC.Coll.list_partial_rejects`: propext, Classical.choice, Quot.sound
* `PC.Coll.list_partial_complete`: propext, Classical.choice, Quot.sound
* `PC.Coll.dict_partial_value`: propext, Quot.sound
* `PC.Coll.dict_partial_key_reported`: propext
* `PC.Coll.tuple_ignores_partial`: propext
* `PC.Coll.union_tuple_disables_partial`: propext
* `PC.Fields.typed_dict_complete_errors`: propext
* `PC.Fields.typed_dict_forgives_only_last`: propext
* `PC.Coll.dict_accepts_iff`: propext, Classical.choice, Quot.sound
* `PC.Coll.dict_errors`: propext, Classical.choice, Quot.sound
* `PC.Coll.dict_later_wins`: propext, Quot.sound
* `PC.Coll.dict_keys`: propext
* `PC.Coll.set_accepts_iff`: propext, Classical.choice, Quot.sound
* `PC.Coll.distinct_spec`: propext, Quot.sound
* `PC.Coll.set_errors`: propext, Classical.choice, Quot.sound
* `PC.Coll.tuple_accepts_iff`: propext, Classical.choice, Quot.sound
* `PC.Coll.slots_spec`: propext, Quot.sound
* `PC.Coll.tuple_errors_partial`: propext, Classical.choice, Quot.sound
* `PC.Coll.tuple_errors_reported`: propext, Classical.choice, Quot.sound
* `PC.Coll.tuple_too_long`: propext, Classical.choice, Quot.sound
* `PC.Coll.tuple_too_many`: propext, Classical.choice, Quot.sound
* `PC.Coll.tuple_never_panics`: propext, Classical.choice, Quot.sound
* `PC.Coll.tuple_tail_index_off_by_one`: propext
* `PC.Coll.tuple_iteration_error_index`: propext
* `PC.Coll.tuple_defaults_bypass_max`: propext
* `PC.Coll.tuple_spurious_too_short`: propext
* `PC.Num.int_constraints_exact_partial`: propext, Classical.choice, Quot.sound
* `PC.Num.multiple_of_zero_panics`: propext, Quot.sound
* `PC.Num.multiple_of_minus_one_panics`: propext
* `PC.Num.constraints_not_exact`: propext, Quot.sound
* `PC.Num.int_error_kind`: propext, Classical.choice, Quot.sound
* `PC.IntParse.int_literal_accepted`: propext, Classical.choice, Quot.sound
* `PC.IntParse.accepted_is_literal_partial`: propext, Classical.choice, Quot.sound
* `PC.IntParse.accepts_junk`: propext, Classical.choice, Quot.sound
* `PC.IntParse.strings_disagree`: propext, Classical.choice, Quot.sound
* `PC.IntParse.junk_rejected`: propext, Classical.choice, Quot.sound
* `PC.Float.float_as_int_exact`: propext, Classical.choice, Quot.sound
* `PC.Float.float_as_int_errors`: propext, Classical.choice, Quot.sound
* `PC.Float.min_float_rejected`: propext, Classical.choice, Quot.sound
* `PC.Float.decimal_as_int_exact`: propext, Quot.sound
* `PC.In.lax_int_decimal`: propext, Quot.sound
* `PC.In.lax_int_float`: propext
* `PC.Str.space_iff`: propext, Classical.choice, Quot.sound
* `PC.Str.str_constraints_exact`: propext, Quot.sound
* `PC.Str.str_constraints_hold_partial`: propext, Quot.sound
* `PC.Str.upper_exceeds_max_length`: propext, Classical.choice, Quot.sound
* `PC.Str.constraints_fail`: propext, Classical.choice, Quot.sound
* `PC.Str.stripped_unique`: propext, Quot.sound
* `PC.Comb.default_not_used`: propext, Quot.sound
* `PC.Comb.default_used_unvalidated`: propext, Quot.sound
* `PC.Comb.default_used_validated`: propext, Quot.sound
* `PC.Comb.factory_called_partial`: propext, Quot.sound
* `PC.Comb.factory_given_tuple`: propext, Quot.sound
* `PC.Comb.default_terminates_partial`: propext
* `PC.Comb.default_invalid_diverges`: propext, Quot.sound
* `PC.Comb.default_missing_panics`: propext
* `PC.In.strict_lax_int`: propext
* `PC.In.strict_lax_bool`: propext, Classical.choice, Quot.sound
* `PC.In.strict_lax_str`: propext
* `PC.In.strict_lax_bytes`: propext
* `PC.In.strict_lax_decimal`: propext
* `PC.In.strict_lax_float_partial`: propext
* `PC.In.strict_float_str`: propext
* `PC.In.strict_not_lax_float`: propext
* `PC.In.strict_lax_json`: propext, Classical.choice, Quot.sound
* `PC.In.strict_lax_string`: propext, Classical.choice, Quot.sound
* `PC.Time.instances_kept`: propext
* `PC.Time.strict_lax_temporal`: propext
* `PC.Time.strict_lax_temporal_json`: propext
* `PC.Time.strict_lax_date_schema`: propext
* `PC.Time.strict_lax_datetime_schema`: propext
* `PC.Engine.strict_accepted_means_lax_accepted_partial`: propext, Classical.choice, Quot.sound
* `PC.Engine.left_to_right_strict_not_lax`: propext, Quot.sound
* `PC.Engine.smart_union_of_dicts_strict_not_lax`: propext, Classical.choice, Quot.sound
* `PC.Engine.mapping_attributes_strict_not_lax`: propext, Classical.choice, Quot.sound
* `PC.Engine.wrap_strict_not_lax`: propext, Quot.sound
* `PC.Engine.lax_or_strict_strict_not_lax`: propext, Quot.sound
* `PC.Lit.literal_sound`: propext, Quot.sound
* `PC.Lit.literal_complete_partial`: propext, Classical.choice, Quot.sound
* `PC.Lit.literal_big_int_rejected`: propext, Classical.choice, Quot.sound
* `PC.Lit.literal_same_type`: propext, Classical.choice, Quot.sound
* `PC.Lit.literal_accepts_bool_for_int`: propext
* `PC.Lit.literal_not_exact`: propext
* `PC.Lit.literal_rejects_listed_int`: propext
* `PC.In.json_literal_agrees`: propext, Classical.choice, Quot.sound
* `PC.Defs.builds_iff`: propext, Classical.choice, Quot.sound
* `PC.Defs.errors_are_right`: propext, Classical.choice, Quot.sound
* `PC.Defs.references_resolve_partial`: propext, Classical.choice, Quot.sound
* `PC.Defs.same_name_same_definition`: propext, Classical.choice, Quot.sound
* `PC.Defs.no_panic_while_owned`: propext, Classical.choice, Quot.sound
* `PC.Defs.dropped_owner_panics`: propext
* `PC.Comb.location_outermost_first`: propext
* `PC.Comb.location_round_trip`: propext
* `PC.Comb.location_never_empty_list`: propext
* `PC.Lookup.value_error_location`: propext, Quot.sound
* `PC.Lookup.missing_error_location`: propext, Classical.choice, Quot.sound
* `PC.Time.timedelta_round_trip`: propext, Classical.choice, Quot.sound
* `PC.Time.delta_new_exact`: propext, Classical.choice, Quot.sound
* `PC.Time.timedelta_text`: propext, Quot.sound
* `PC.Time.delta_to_duration_value`: propext, Classical.choice, Quot.sound
* `PC.Time.duration_to_delta_value`: propext, Quot.sound
* `PC.Time.int_seconds_exact_partial`: propext, Quot.sound
* `PC.Time.int_seconds_wrap`: none
* `PC.Time.not_int_seconds_exact`: none
* `PC.Time.float_seconds_near`: propext, Classical.choice, Quot.sound
* `PC.Time.float_timestamp_near_partial`: propext, Classical.choice, Quot.sound
* `PC.Time.negative_timestamp_wrong`: propext, Quot.sound
* `PC.Time.not_float_timestamp_near`: propext, Classical.choice, Quot.sound
* `PC.Time.tz_in_range_partial`: propext, Classical.choice, Quot.sound
* `PC.Time.tz_new_exact_partial`: propext, Classical.choice, Quot.sound
* `PC.Time.tz_min_accepted`: propext
* `PC.Time.not_tz_in_range`: propext
* `PC.Time.tz_str_faithful`: propext, Classical.choice, Quot.sound
* `PC.Time.tz_str_injective`: propext, Classical.choice, Quot.sound
* `PC.Time.tz_utcoffset`: propext, Classical.choice, Quot.sound
* `PC.Time.tz_cmp`: propext, Quot.sound
* `PC.Time.tz_eq_iff`: propext, Classical.choice, Quot.sound
* `PC.Time.tz_eq_not_transitive`: propext, Classical.choice, Quot.sound
* `PC.Args.args_sound_partial`: propext, Classical.choice, Quot.sound
* `PC.Args.args_complete_partial`: propext, Classical.choice, Quot.sound
* `PC.Args.args_errors_reported_partial`: propext, Classical.choice, Quot.sound
* `PC.Args.args_errors_only_partial`: propext, Classical.choice, Quot.sound
* `PC.Args.args_alias_collision`: propext
* `PC.Args.args_alias_twice`: propext
* `PC.Args.args_default_error`: propext
* `PC.Args.args_empty_error_shifts`: propext
* `PC.Args.args_unpacked_overwrites`: propext
* `PC.Args.args_extra_ignored`: propext
* `PC.Gen.next_exact_partial`: propext, Quot.sound
* `PC.Gen.next_any_source_partial`: propext, Quot.sound
* `PC.Gen.takes_one_at_a_time`: propext
* `PC.Gen.index_counts`: propext, Quot.sound
* `PC.Gen.loop_exact_partial`: propext, Classical.choice, Quot.sound
* `PC.Gen.loop_finishes_iff_partial`: propext, Classical.choice, Quot.sound
* `PC.Gen.any_generator_ignores_max`: propext, Quot.sound
* `PC.Gen.any_generator_min`: propext, Quot.sound
* `PC.Filter.select_exact_partial`: propext, Quot.sound
* `PC.Filter.no_filter_keeps_everything`: propext, Quot.sound
* `PC.Filter.exclude_beats_include`: propext
* `PC.Filter.exclude_dict_beats_include`: propext
* `PC.Filter.container_as_set`: propext
* `PC.Filter.all_names_everything`: propext
* `PC.Filter.container_refused`: propext
* `PC.Filter.schema_sets`: propext, Classical.choice, Quot.sound
* `PC.Filter.schema_filter_exact`: propext, Quot.sound
* `PC.Filter.filter_decision`: propext, Quot.sound
* `PC.Filter.merge_entry`: propext, Quot.sound
* `PC.Filter.merge_set_entry`: propext
* `PC.Filter.set_as_dict`: propext
* `PC.Filter.include_overrides_schema_exclude`: propext
* `PC.Filter.index_refers_partial`: propext, Quot.sound
* `PC.Filter.index_includes_partial`: propext, Classical.choice, Quot.sound
* `PC.Filter.index_modulo`: propext
* `PC.Filter.index_out_of_range`: propext
* `PC.Filter.index_unsized_negative`: propext
* `PC.Filter.exclude_monotone_partial`: propext, Quot.sound
* `PC.Filter.schema_exclude_monotone`: propext, Quot.sound
* `PC.Filter.exclude_set_grows`: propext, Quot.sound
* `PC.Filter.exclude_dict_grows`: propext, Classical.choice, Quot.sound
* `PC.Filter.exclude_entry_brings_back`: propext
* `PC.Filter.nested_exclude_overrides_schema`: propext
* `PC.Filter.exclude_index_twice`: propext
* `PC.SerFields.fields_exact_partial`: propext, Classical.choice, Quot.sound
* `PC.SerFields.fields_in_order`: propext, Classical.choice, Quot.sound
* `PC.SerFields.fields_sound`: propext, Classical.choice, Quot.sound
* `PC.SerFields.fields_present`: propext, Classical.choice, Quot.sound
* `PC.SerFields.fields_succeed`: propext, Classical.choice, Quot.sound
* `PC.SerFields.complete_instance_accepted_partial`: propext, Classical.choice, Quot.sound
* `PC.SerFields.clash_hides_field`: propext
* `PC.SerFields.include_fails_in_union`: propext
* `PC.SerFields.json_agrees_partial`: propext, Quot.sound
* `PC.SerFields.json_ignores_extra_serializer`: propext
* `PC.SerFields.json_computed_none`: propext
* `PC.SerFields.json_int_key`: propext
* `PC.SerFields.json_int_key_none`: propext
* `PC.SerFields.json_repeated_key`: propext
* `PC.SerUnion.union_strict`: propext, Classical.choice, Quot.sound
* `PC.SerUnion.union_lax_partial`: propext, Classical.choice, Quot.sound
* `PC.SerUnion.union_infers`: propext, Classical.choice, Quot.sound
* `PC.SerUnion.union_nested_error`: propext, Classical.choice, Quot.sound
* `PC.SerUnion.float_subclass_not_retried`: none
* `PC.SerUnion.attempt_warnings_stay`: none
* `PC.SerUnion.tagged_picks`: propext
* `PC.SerUnion.tagged_falls_back`: propext
* `PC.SerUnion.tagged_no_tag`: propext
* `PC.SerUnion.tagged_lax_in_strict`: propext
* `PC.Trunc.short_text_in_full`: propext, Quot.sound
* `PC.Trunc.long_text_truncated_partial`: propext, Classical.choice, Quot.sound
* `PC.Trunc.error_input_at_most_52_bytes`: propext, Classical.choice, Quot.sound
* `PC.Trunc.zero_limit_panics`: propext, Classical.choice, Quot.sound
* `PC.Trunc.floor_is_largest_boundary`: propext, Classical.choice, Quot.sound
* `PC.Trunc.ceil_is_smallest_boundary`: propext, Classical.choice, Quot.sound
* `PC.Bytes.bytes_round_trip`: propext, Classical.choice, Quot.sound
* `PC.Bytes.bytes_written`: propext
* `PC.Bytes.base64_exact`: propext, Classical.choice, Quot.sound
* `PC.Bytes.hex_exact`: propext, Quot.sound
* `PC.Bytes.spells_injective`: propext, Classical.choice, Quot.sound
* `PC.Bytes.alphabets_rfc4648`: propext, Classical.choice, Quot.sound
* `PC.Bytes.encode64_bits`: propext, Quot.sound
* `PC.Bytes.hex_digits`: propext, Classical.choice, Quot.sound
* `PC.Comb.convert_err_spec`: none
* `PC.Comb.function_raises_fails`: propext
* `PC.Comb.function_ok`: propext
* `PC.Comb.wrap_outcome`: propext
* `PC.Comb.handler_outer_location`: propext, Quot.sound
* `PC.Time.tz_check_exact`: propext
* `PC.Time.constraints_exact`: propext, Quot.sound
* `PC.Time.now_op_exact`: propext
* `PC.Time.datetime_accepts_iff`: propext, Quot.sound
* `PC.Time.constraint_error`: propext, Quot.sound
* `PC.Time.now_error`: propext
* `PC.Time.timedelta_bounds_exact`: propext, Classical.choice, Quot.sound
* `PC.Time.timedelta_subclass_bounds`: propext, Quot.sound
* `PC.Url.multihost_exact`: propext, Classical.choice, Quot.sound
* `PC.Url.multihost_empty`: propext, Classical.choice, Quot.sound
* `PC.Url.multihost_single`: propext, Classical.choice, Quot.sound
* `PC.Url.multihost_no_scheme`: propext, Classical.choice, Quot.sound
* `PC.Url.multihost_no_panic`: propext, Classical.choice, Quot.sound
* `PC.Url.shape_exists`: propext, Classical.choice, Quot.sound
* `PC.Url.shape_unique`: propext, Classical.choice, Quot.sound
* `PC.Url.parseUrl_ok_iff`: propext, Quot.sound
* `PC.Msg.message_exact_partial`: propext, Classical.choice, Quot.sound
* `PC.Msg.placeholders_provided`: propext, Classical.choice, Quot.sound
* `PC.Msg.tag_rewrites_message`: propext, Classical.choice, Quot.sound
* `PC.Msg.custom_value_rewritten`: propext, Classical.choice, Quot.sound
* `PC.Keys.tuple_key_joined`: propext, Classical.choice, Quot.sound
* `PC.Keys.json_keys_distinct_partial`: propext, Classical.choice, Quot.sound
* `PC.Keys.dict_entries_kept_partial`: propext, Classical.choice, Quot.sound
* `PC.Keys.dict_last_wins`: propext, Classical.choice, Quot.sound
* `PC.Keys.dict_fails_alike`: none
* `PC.Keys.comma_collision`: propext, Classical.choice, Quot.sound
* `PC.Keys.shape_collision`: propext, Classical.choice, Quot.sound
* `PC.Keys.empty_collision`: propext, Classical.choice, Quot.sound
* `PC.Keys.type_collision`: propext, Classical.choice, Quot.sound
* `PC.Keys.infinity_collision`: propext, Classical.choice, Quot.sound
* `PC.Keys.entries_merged`: propext, Classical.choice, Quot.sound
* `PC.Keys.excluded_item_collision`: propext, Classical.choice, Quot.sound
* `PC.Infer.tuple_as_key`: propext, Classical.choice, Quot.sound
* `PC.Infer.scalar_as_key`: propext, Classical.choice, Quot.sound
* `PC.Comb.exactness_is_minimum`: propext, Quot.sound
* `PC.Comb.exactness_untracked`: none
* `PC.Comb.combinators_never_raise`: propext, Quot.sound
* `PC.Comb.unions_never_raise_partial`: propext, Quot.sound
* `PC.Comb.left_to_right_failed_member_lowers`: propext
* `PC.Union.smart_union_state`: propext, Quot.sound
* `PC.Union.smart_union_state_not_restored_on_omit`: propext
* `PC.Comb.rebind_restores`: propext
* `PC.Comb.combinators_keep_options`: propext
* `PC.Comb.strict_precedence`: propext
* `PC.Comb.alias_precedence`: propext
* `PC.Comb.isinstance_agrees`: propext, Quot.sound
* `PC.Comb.nullable_spec`: propext
* `PC.Comb.json_or_python_spec`: propext
* `PC.Comb.chain_spec`: propext, Quot.sound
* `PC.Comb.chain_empty_rejected`: propext
* `PC.Comb.chain_assoc`: Quot.sound
* `PC.Comb.chain_first_failure`: propext
* `PC.Engine.accepted_output_conforms_partial`: propext, Classical.choice, Quot.sound
* `PC.Engine.python_validation_sound_partial`: propext, Classical.choice, Quot.sound
* `PC.Engine.extra_item_replaces_field`: propext, Quot.sound
* `PC.Engine.conforming_value_comes_back_partial`: propext, Classical.choice, Quot.sound
* `PC.Engine.accepted_output_revalidates_partial`: propext, Classical.choice, Quot.sound
* `PC.Engine.smart_union_of_dicts_not_idempotent`: propext, Classical.choice, Quot.sound
* `PC.Engine.left_to_right_not_idempotent`: propext, Quot.sound
* `PC.Engine.default_not_revalidated`: propext, Quot.sound
* `PC.Engine.alias_not_revalidated`: propext, Classical.choice, Quot.sound
* `PC.Engine.tagged_instance_refused`: propext, Classical.choice, Quot.sound
* `PC.Engine.error_location_leads_to_input_partial`: propext, Classical.choice, Quot.sound
* `PC.Engine.tuple_tail_location_off_by_one`: propext, Quot.sound
* `PC.Engine.before_function_location`: propext, Quot.sound
* `PC.Engine.after_function_location`: propext, Quot.sound
* `PC.Comb.wrap_transparent_partial`: propext, Quot.sound
* `PC.Comb.wrap_drops_options`: none
* `PC.Float.float_constraints_exact`: propext, Classical.choice, Quot.sound
* `PC.Float.float_schema_exact`: propext, Classical.choice, Quot.sound
* `PC.Float.nan_within_no_bound`: propext, Classical.choice, Quot.sound
* `PC.IntParse.str_as_bool_exact`: propext, Classical.choice, Quot.sound
* `PC.Lit.int_enum_errors`: propext, Classical.choice, Quot.sound
* `PC.Lit.enum_sound_partial`: propext, Quot.sound
* `PC.Lit.enum_strict_python`: propext
* `PC.Lit.enum_int_accepted`: propext, Classical.choice, Quot.sound
* `PC.Lit.enum_json_none_member`: propext
* `PC.Lit.enum_not_sound`: propext
* `PC.In.json_python_agree`: propext, Classical.choice, Quot.sound
* `PC.In.json_python_float_partial`: propext, Classical.choice, Quot.sound
* `PC.In.json_big_int_is_infinite`: propext, Classical.choice, Quot.sound
* `PC.Time.json_python_temporal_partial`: propext
* `PC.Time.bool_timedelta_disagrees`: propext
* `PC.In.strict_int_exact`: propext, Quot.sound
* `PC.In.strict_bool_exact`: propext, Classical.choice, Quot.sound
* `PC.In.strict_str_exact`: propext, Quot.sound
* `PC.In.strict_bytes_exact`: propext, Quot.sound
* `PC.In.strict_never_lax`: propext, Classical.choice, Quot.sound
* `PC.In.int_returns_int_partial`: propext
* `PC.In.lax_int_returns_string`: propext
* `PC.Time.date_of_datetime`: propext, Classical.choice, Quot.sound
* `PC.Time.datetime_of_date`: propext, Quot.sound
* `PC.Time.date_of_datetime_text`: propext, Classical.choice, Quot.sound
* `PC.Time.datetime_of_date_text`: propext, Quot.sound
* `PC.Time.text_refused`: propext, Quot.sound
* `PC.Time.int_time_exact`: propext, Classical.choice, Quot.sound
* `PC.Time.float_time_near`: propext, Classical.choice, Quot.sound
* `PC.Time.time_text`: propext, Quot.sound
* `PC.Time.json_big_int`: propext
* `PC.Gen.lazy_serialisation_agrees`: propext, Quot.sound
* `PC.SerTuple.variadic_exact_partial`: propext, Quot.sound
* `PC.SerTuple.fixed_exact`: propext, Quot.sound
* `PC.SerTuple.fixed_exact_fits`: propext, Quot.sound
* `PC.SerTuple.tuple_items_serialised`: propext, Quot.sound
* `PC.SerTuple.variadic_short_shifted`: propext
* `PC.Infer.tuple_extra_items_inferred`: propext, Classical.choice, Quot.sound
* `PC.Infer.tuple_length_checked_in_union`: propext, Classical.choice, Quot.sound
* `PC.Infer.tuple_schema_key_joined`: propext, Classical.choice, Quot.sound
* `PC.Url.url_schema_iff`: propext
* `PC.Url.url_exact`: propext, Classical.choice, Quot.sound
* `PC.Url.defaults_exact`: propext, Classical.choice, Quot.sound
* `PC.Url.filled_parts`: propext
* `PC.Url.url_too_long`: propext, Classical.choice, Quot.sound
* `PC.Url.url_wrong_scheme`: propext, Quot.sound
* `PC.Url.multi_exact_partial`: propext, Classical.choice, Quot.sound
* `PC.Url.default_port_last_host_only`: propext, Classical.choice, Quot.sound
* `PC.Url.unicode_exact_partial`: propext, Classical.choice, Quot.sound
* `PC.Url.unicode_no_domain`: propext, Classical.choice, Quot.sound
* `PC.Url.unicode_host_agrees`: propext, Classical.choice, Quot.sound
* `PC.Url.decode_exact`: propext, Classical.choice, Quot.sound
* `PC.Url.unicode_wrong_with_credentials`: propext, Classical.choice, Quot.sound
* `PC.Url.multi_text`: propext, Classical.choice, Quot.sound
* `PC.Url.multiStr_exact`: propext, Classical.choice, Quot.sound
* `PC.Url.multiUnicode_exact_partial`: propext, Classical.choice, Quot.sound
* `PC.Url.multi_roundtrip`: propext, Classical.choice, Quot.sound
* `PC.Url.url_eq_same_text`: propext, Classical.choice, Quot.sound
* `PC.Url.multi_hash_single_partial`: propext, Classical.choice, Quot.sound
* `PC.Url.multi_hash_same_text`: propext, Classical.choice, Quot.sound
* `PC.Url.multi_equal_but_hashed_differently`: propext, Classical.choice, Quot.sound
* `PC.Url.buildUrl_exact`: propext, Classical.choice, Quot.sound
* `PC.Url.build_injective_partial`: propext, Classical.choice, Quot.sound
* `PC.Url.build_ambiguous`: propext, Classical.choice, Quot.sound
* `PC.Url.buildMulti_exact_partial`: propext, Classical.choice, Quot.sound
* `PC.Url.buildMulti_empty_host`: propext, Classical.choice, Quot.sound
* `PC.Url.buildMulti_single`: propext, Classical.choice, Quot.sound
* `PC.Url.buildMulti_choice`: propext, Classical.choice, Quot.sound
* `PC.Url.username_alone_refused`: propext, Classical.choice, Quot.sound
* `PC.Dc.dataclass_args_sound_partial`: propext, Classical.choice, Quot.sound
* `PC.Dc.dataclass_args_complete_partial`: propext, Classical.choice, Quot.sound
* `PC.Dc.dataclass_args_errors_partial`: propext, Classical.choice, Quot.sound
* `PC.Dc.dataclass_args_raises_partial`: propext, Classical.choice, Quot.sound
* `PC.Dc.init_false_shifts`: propext, Quot.sound
* `PC.Dc.init_false_loses_argument`: propext
* `PC.Dc.init_false_overwritten`: propext
* `PC.Dc.aliased_overwritten`: propext
* `PC.Dc.omit_ends_validation`: propext
* `PC.Dc.dataclass_assign_rejected_keeps`: propext
* `PC.Dc.dataclass_assign_frozen`: propext, Quot.sound
* `PC.Dc.dataclass_assign_accepted_partial`: propext, Quot.sound
* `PC.Dc.dataclass_assign_valid_partial`: propext, Quot.sound
* `PC.Dc.assign_loses_extra`: propext
* `PC.Dc.assign_needs_all_fields`: propext
* `PC.Dc.assign_extra_not_validated`: propext
* `PC.Dc.dataclass_instance_kept`: propext
* `PC.Dc.dataclass_strict`: propext
* `PC.Dc.dataclass_init`: propext, Quot.sound
* `PC.Dc.dataclass_init_rejected_keeps`: propext
* `PC.Dc.dataclass_init_failed_keeps_partial`: propext
* `PC.Dc.dataclass_new`: propext, Quot.sound
* `PC.Dc.dataclass_revalidate_partial`: propext, Classical.choice, Quot.sound
* `PC.Dc.init_half_done`: propext
* `PC.Dc.revalidate_init_only`: propext
* `PC.Dc.revalidate_init_false`: propext
* `PC.Dc.revalidate_resets`: propext
* `PC.Dc.revalidate_loses_extra`: propext
* `PC.Cls.model_instance_kept`: propext
* `PC.Cls.model_instance_kept_state`: propext
* `PC.Cls.model_new`: propext
* `PC.Cls.model_revalidated`: propext
* `PC.Cls.model_root`: propext
* `PC.Cls.model_custom_init`: none
* `PC.Cls.model_init_rejected_keeps`: none
* `PC.Cls.model_init_as_new`: propext
* `PC.Cls.InstanceDemo.revalidate_alias`: propext
* `PC.Cls.InstanceDemo.revalidate_root_fields_set`: propext
* `PC.Cls.InstanceDemo.init_post_init_failed`: propext
* `PC.Cls.InstanceDemo.revalidate_post_init`: propext
* `PC.Infer.json_ways_agree_partial`: propext, Classical.choice, Quot.sound
* `PC.Infer.json_mode_is_jsonable_partial`: propext, Classical.choice, Quot.sound
* `PC.Infer.json_ways_differ_on_filtered_sets`: propext, Classical.choice, Quot.sound
* `PC.Infer.json_ways_differ_on_infinity`: propext, Classical.choice, Quot.sound
* `PC.Infer.json_ways_differ_on_float_fields`: propext, Classical.choice, Quot.sound
* `PC.Infer.json_ways_differ_on_bytes_patterns`: propext, Classical.choice, Quot.sound
* `PC.Infer.json_ways_differ_on_unknown_cycles`: propext, Classical.choice, Quot.sound
* `PC.Infer.json_ways_differ_on_decimals`: propext, Classical.choice, Quot.sound
* `PC.Infer.json_ways_differ_on_typed_dicts`: propext, Classical.choice, Quot.sound
* `PC.Infer.serialisation_ends`: propext, Classical.choice, Quot.sound
* `PC.Infer.plain_data_to_json`: propext, Classical.choice, Quot.sound
* `PC.Infer.plain_data_to_python`: propext, Classical.choice, Quot.sound
* `PC.Infer.cyclic_data_not_written`: propext, Classical.choice, Quot.sound
* `PC.Infer.cyclic_data_not_jsonable`: propext, Classical.choice, Quot.sound
* `PC.Infer.as_any_fails_on_inferred_models`: propext, Classical.choice, Quot.sound
* `PC.Infer.to_json_exact`: propext, Classical.choice, Quot.sound
* `PC.Infer.to_python_json_exact_partial`: propext, Classical.choice, Quot.sound
* `PC.Infer.written_document_unique`: propext, Classical.choice, Quot.sound
* `PC.Trip.document_comes_back_partial`: propext, Classical.choice, Quot.sound
* `PC.Trip.value_comes_back_partial`: propext, Classical.choice, Quot.sound
* `PC.Trip.Sample.aliased_field_does_not_come_back`: propext, Classical.choice, Quot.sound
* `PC.Trip.Sample.excluded_none_comes_back_as_default`: propext, Classical.choice, Quot.sound
* `PC.Trip.Sample.root_model_of_none_comes_back_as_none`: propext, Classical.choice, Quot.sound
* `PC.Trip.Sample.infinity_does_not_come_back`: propext, Classical.choice, Quot.sound
* `PC.Decimal.digits_exact_partial`: propext, Classical.choice, Quot.sound
* `PC.Decimal.digits_error_partial`: propext, Classical.choice, Quot.sound
* `PC.Decimal.zero_digits`: propext, Classical.choice, Quot.sound
* `PC.Decimal.accepted_exact_partial`: propext, Classical.choice, Quot.sound
* `PC.Decimal.multiple_accepted`: propext, Classical.choice, Quot.sound
* `PC.Decimal.accepted_near_multiple`: propext, Classical.choice, Quot.sound
* `PC.Decimal.not_finite`: propext, Classical.choice, Quot.sound
* `PC.Decimal.long_decimal_accepted`: propext, Classical.choice, Quot.sound
* `PC.Decimal.zero_refused`: propext, Classical.choice, Quot.sound
* `PC.Decimal.half_is_multiple_of_one`: propext, Classical.choice, Quot.sound
* `PC.Decimal.large_multiple_raises`: propext, Classical.choice, Quot.sound
* `PC.JsonText.text_exact`: propext, Classical.choice, Quot.sound
* `PC.JsonText.reads_back_partial`: propext, Classical.choice, Quot.sound
* `PC.JsonText.reads_back_extended`: propext, Classical.choice, Quot.sound
* `PC.JsonText.same_text_same_document`: propext, Classical.choice, Quot.sound
* `PC.JsonText.indentation_keeps_document`: propext, Classical.choice, Quot.sound
* `PC.JsonText.announcement_does_not_show`: propext, Classical.choice, Quot.sound
* `PC.JsonText.compact_is_one_line`: propext, Classical.choice, Quot.sound
* `PC.JsonText.nan_is_not_json`: propext, Classical.choice, Quot.sound
* `PC.JsonText.wrong_length_breaks_text`: propext, Classical.choice, Quot.sound
* `PC.JsonText.not_all_read_back`: propext, Classical.choice, Quot.sound
* `PC.JsonText.value_comes_back_through_text_partial`: propext, Classical.choice, Quot.sound
* `PC.JsonText.denotes_unique`: propext, Classical.choice, Quot.sound
* `PC.Report.errors_exact`: propext, Classical.choice, Quot.sound
* `PC.Report.errors_succeed_iff`: propext, Classical.choice, Quot.sound
* `PC.Report.errors_can_fail`: propext, Classical.choice, Quot.sound
* `PC.Report.flags_only_remove`: propext, Classical.choice, Quot.sound
* `PC.Report.context_of_known`: propext, Classical.choice, Quot.sound
* `PC.Report.context_of_custom_partial`: propext, Classical.choice, Quot.sound
* `PC.Report.custom_context_entries_lost`: propext, Classical.choice, Quot.sound
* `PC.Report.json_mirrors_errors_partial`: propext, Classical.choice, Quot.sound
* `PC.Report.json_has_url_of_custom`: propext, Classical.choice, Quot.sound
* `PC.Report.json_text`: propext, Classical.choice, Quot.sound
* `PC.Report.str_exact`: propext, Classical.choice, Quot.sound
* `PC.Report.location_shown`: propext, Classical.choice, Quot.sound
* `PC.Report.title_must_be_text`: propext, Classical.choice, Quot.sound
* `PC.Report.counts_agree`: propext, Classical.choice, Quot.sound
* `PC.Report.hidden_input_does_not_show`: propext, Classical.choice, Quot.sound
* `PC.Report.hide_input_only_in_str`: propext, Classical.choice, Quot.sound
* `PC.Report.pickling_keeps_reports_partial`: propext, Classical.choice, Quot.sound
* `PC.Report.custom_not_picklable`: propext, Classical.choice, Quot.sound
* `PC.Report.custom_becomes_known`: propext, Classical.choice, Quot.sound
* `PC.Report.big_limit_changes`: propext, Classical.choice, Quot.sound
* `PC.Report.big_limit_not_picklable`: propext, Classical.choice, Quot.sound
* `PC.SerFunction.when_used_names`: propext
* `PC.SerFunction.unused_not_consulted`: propext, Classical.choice, Quot.sound
* `PC.SerFunction.unused_as_without_partial`: propext, Classical.choice, Quot.sound
* `PC.SerFunction.unused_filters_lost`: propext, Classical.choice, Quot.sound
* `PC.SerFunction.plain_used_exact`: propext, Classical.choice, Quot.sound
* `PC.SerFunction.arguments_exist_iff`: propext, Classical.choice, Quot.sound
* `PC.SerFunction.no_context_reported`: propext, Classical.choice, Quot.sound
* `PC.SerFunction.plain_hides_partial`: propext, Classical.choice, Quot.sound
* `PC.SerFunction.wrap_hides_partial`: propext, Classical.choice, Quot.sound
* `PC.SerFunction.unexpected_leaks`: propext, Classical.choice, Quot.sound
* `PC.SerFunction.exception_reported`: propext, Classical.choice, Quot.sound
* `PC.SerFunction.unexpected_warns`: propext, Classical.choice, Quot.sound
* `PC.SerFunction.to_json_errors`: propext, Classical.choice, Quot.sound
* `PC.SerFunction.to_string_error_escapes`: propext, Classical.choice, Quot.sound
* `PC.SerFunction.handler_excludes`: propext
* `PC.SerFunction.handler_is_schema`: propext
* `PC.SerFunction.handler_negative_index`: propext, Classical.choice, Quot.sound
* `PC.SerFunction.transparent_wrap`: propext, Classical.choice, Quot.sound
* `PC.SerFunction.wrap_keeps_state`: propext
* `PC.SerFunction.handler_error_swallowed`: propext, Classical.choice, Quot.sound
* `PC.SerFunction.transparent_error_mode`: propext, Classical.choice, Quot.sound
* `PC.SerFunction.earlier_warning_issued_again`: propext, Classical.choice, Quot.sound
* `PC.SerFunction.earlier_warning_raises`: propext, Classical.choice, Quot.sound
* `PC.SerFunction.json_agrees_with_python`: propext, Classical.choice, Quot.sound
* `PC.SerFunction.json_may_fail_alone`: propext, Classical.choice, Quot.sound
* `PC.SerFunction.to_string_keys_collide`: propext, Classical.choice, Quot.sound
* `PC.SerFunction.no_panic`: propext, Classical.choice, Quot.sound
* `PC.SerFunction.panic_without_fallback`: propext, Classical.choice, Quot.sound
* `PC.SerFunction.format_python_identity`: propext, Classical.choice, Quot.sound
* `PC.SerFunction.format_json_exact`: propext, Classical.choice, Quot.sound
* `PC.SerFunction.empty_format`: propext, Classical.choice, Quot.sound
* `PC.SerFunction.validators_ignored`: propext, Classical.choice, Quot.sound
* `PC.SerFunction.retry_exact`: propext, Classical.choice, Quot.sound
* `PC.Infer.function_result_serialised`: propext, Classical.choice, Quot.sound
* `PC.Infer.unused_function_transparent_partial`: propext, Classical.choice, Quot.sound
* `PC.Infer.unused_function_loses_exclude`: propext, Classical.choice, Quot.sound
* `PC.Infer.function_unexpected_value`: propext, Classical.choice, Quot.sound
* `PC.Infer.function_error_raised`: propext, Classical.choice, Quot.sound
* `PC.Infer.field_function_needs_model`: propext, Classical.choice, Quot.sound
* `PC.ArgsV3.build_iff`: propext, Quot.sound
* `PC.ArgsV3.build_refuses_star_after_default`: propext, Classical.choice, Quot.sound
* `PC.ArgsV3.mapping_sound_partial`: propext, Classical.choice, Quot.sound
* `PC.ArgsV3.mapping_complete_partial`: propext, Quot.sound
* `PC.ArgsV3.mapping_errors_only_partial`: propext, Quot.sound
* `PC.ArgsV3.argskwargs_as_arguments_partial`: propext, Classical.choice, Quot.sound
* `PC.ArgsV3.argskwargs_sound_partial`: propext, Classical.choice, Quot.sound
* `PC.ArgsV3.forms_agree_partial`: propext, Classical.choice, Quot.sound
* `PC.ArgsV3.mapping_clash_overwrites`: propext, Classical.choice, Quot.sound
* `PC.ArgsV3.mapping_clash_twice`: propext
* `PC.ArgsV3.mapping_generator_panics`: propext
* `PC.ArgsV3.field_name_not_set`: propext
* `PC.Uuid.build_iff`: propext, Classical.choice, Quot.sound
* `PC.Uuid.instance_iff`: propext, Quot.sound
* `PC.Uuid.plain_iff`: propext, Classical.choice, Quot.sound
* `PC.Uuid.spells_unique`: propext, Classical.choice, Quot.sound
* `PC.Uuid.output_version`: propext, Classical.choice, Quot.sound
* `PC.Uuid.print_canonical`: propext, Classical.choice, Quot.sound
* `PC.Uuid.print_total`: propext, Quot.sound
* `PC.Uuid.print_injective`: propext, Classical.choice, Quot.sound
* `PC.Uuid.text_agrees`: propext, Classical.choice, Quot.sound
* `PC.Uuid.sixteen_bytes`: propext, Classical.choice, Quot.sound
* `PC.Uuid.state_after`: propext
* `PC.Uuid.one_error`: propext
* `PC.Uuid.roundtrip_safety_witness`: propext, Classical.choice, Quot.sound
* `PC.Complex.accepted_iff`: propext, Quot.sound
* `PC.Complex.state_after`: propext
* `PC.Complex.panics_iff`: propext
* `PC.Complex.call_strict_ignored`: propext
* `PC.Complex.strict_call_coerces_witness`: propext
* `PC.Complex.roundtrip_iff`: propext, Classical.choice, Quot.sound
* `PC.Complex.unreadable_iff`: propext, Classical.choice, Quot.sound
* `PC.Complex.text_injective`: propext, Classical.choice, Quot.sound
* `PC.Complex.unreadable_witnesses`: propext, Classical.choice, Quot.sound
* `PC.JsonSchema.python_is_validate_json`: propext
* `PC.JsonSchema.accepted_iff`: propext, Quot.sound
* `PC.JsonSchema.refused_why`: propext
* `PC.JsonSchema.python_not_text`: propext
* `PC.JsonSchema.extra_restored`: propext
* `PC.JsonSchema.any_is_no_schema`: propext
* `PC.JsonSchema.build_uses_schema`: none
* `PC.JsonSchema.nested_reads_back`: propext, Quot.sound
* `PC.JsonSchema.nested_reads_back_python`: propext, Quot.sound
* `PC.JsonSchema.without_round_trip`: none
* `PC.JsonSchema.json_witnesses`: propext
* `PC.StringMode.dict_for_scalar_refused`: propext, Quot.sound
* `PC.StringMode.unreadable_date`: propext, Quot.sound
* `PC.StringMode.python_list_exact`: propext
* `PC.StringMode.strings_as_lax_python`: propext, Quot.sound
* `PC.StringMode.strict_ignored_without_dates`: propext, Quot.sound
* `PC.StringMode.strict_accepts_less`: propext, Quot.sound
* `PC.StringMode.strict_matters_for_dates`: propext, Quot.sound
* `PC.StringMode.accepted_is_textual`: propext, Classical.choice, Quot.sound
* `PC.StringMode.lists_and_none_refused`: propext, Classical.choice, Quot.sound
* `PC.StringMode.other_input_refused`: propext
* `PC.StringMode.unreadable_field_is_located`: propext
* `PC.StringMode.unreadable_item_hides_everything`: propext, Quot.sound
* `PC.StringMode.unreadable_extra_hides_everything`: propext, Quot.sound
* `PC.Infer.text_same_everywhere`: propext, Classical.choice, Quot.sound
* `PC.Infer.duration_same_everywhere`: propext, Classical.choice, Quot.sound
* `PC.Infer.enum_written_as_value`: propext, Classical.choice, Quot.sound
* `PC.Infer.wrong_type_warned`: propext, Classical.choice, Quot.sound
* `PC.Infer.duration_never_warned_in_python_mode`: propext, Classical.choice, Quot.sound
* `PC.Infer.none_never_warned`: propext, Classical.choice, Quot.sound
* `PC.Infer.wrong_type_refused_in_union`: propext, Classical.choice, Quot.sound
* `PC.Infer.literal_never_warned`: propext, Classical.choice, Quot.sound
* `PC.Infer.literal_in_union`: propext, Classical.choice, Quot.sound
* `PC.Infer.json_or_python_by_function`: propext, Classical.choice, Quot.sound
* `PC.Infer.dataclass_written_as_fields`: propext, Classical.choice, Quot.sound
* `PC.Infer.json_ways_differ_on_json_or_python`: propext, Classical.choice, Quot.sound
* `PC.Infer.empty_chain_panics`: none
* `PC.Infer.build_panics_only_for_empty_chain_partial`: propext
* `PC.Infer.chain_serialised_as_last`: propext
* `PC.Infer.validation_schemas_serialised_as_inner`: propext
* `PC.CallClass.called_iff_arguments_valid`: propext
* `PC.CallClass.call_succeeds_iff`: propext, Quot.sound
* `PC.CallClass.call_fails_as`: propext
* `PC.CallClass.is_instance_exact`: propext, Quot.sound
* `PC.CallClass.is_subclass_exact`: propext, Quot.sound
* `PC.CallClass.callable_exact`: propext, Quot.sound
* `PC.Prebuilt.reused_only_if`: propext, Quot.sound
* `PC.Prebuilt.reuse_is_transparent_partial`: propext, Quot.sound
* `PC.Prebuilt.before_function_called_twice`: propext
* `PC.Prebuilt.other_schema_ignored`: propext
* `PC.PrebuiltSer.serializer_reused_only_if`: propext, Quot.sound
* `PC.PrebuiltSer.serializer_reuse_transparent_partial`: propext, Quot.sound
* `PC.PrebuiltSer.plain_function_lawful`: propext, Quot.sound
* `PC.PrebuiltSer.replaced_function_called`: propext
* `PC.PrebuiltSer.wrapped_function_called`: propext
* `PC.BytesVal.bytes_accepted_exact_partial`: propext, Classical.choice, Quot.sound
* `PC.BytesVal.bytes_limit_errors`: propext, Classical.choice, Quot.sound
* `PC.BytesVal.limits_count_bytes`: propext, Classical.choice, Quot.sound
* `PC.BytesVal.bytes_revalidate`: propext, Classical.choice, Quot.sound
* `PC.BytesVal.length_of_subclass_trusted`: propext, Quot.sound
* `PC.ObType.own_class_first`: propext
* `PC.ObType.marks_come_next`: propext
* `PC.ObType.nearest_base`: propext
* `PC.ObType.isinstance_last`: propext
* `PC.ObType.unknown_iff`: propext, Quot.sound
* `PC.ObType.type_is_sound`: propext, Classical.choice, Quot.sound
* `PC.ObType.class_is_not_instance`: propext, Classical.choice, Quot.sound
* `PC.ObType.is_type_exact`: propext
* `PC.ObType.is_type_sound`: propext
* `PC.ObType.inferred_is_expected`: propext, Classical.choice, Quot.sound
* `PC.ObType.expected_is_inferred`: propext
* `PC.ObType.type_equality`: propext
* `PC.ObType.float_takes_integers`: propext
* `PC.ObType.pattern_is_path`: propext
* `PC.ObType.readings_part`: propext
* `PC.ObType.derived_metaclass_is_no_enum`: propext
* `PC.Infer.unknown_object`: propext, Classical.choice, Quot.sound
* `PC.Infer.unknown_fallback`: propext, Classical.choice, Quot.sound
* `PC.Info.model_told_only`: propext, Quot.sound
* `PC.Info.dict_told_only`: propext, Quot.sound
* `PC.Info.dataclass_told_only`: propext, Quot.sound
* `PC.Info.model_field_told`: propext, Classical.choice, Quot.sound
* `PC.Info.dict_field_told`: propext, Classical.choice, Quot.sound
* `PC.Info.assignment_told`: propext, Quot.sound
* `PC.Info.plain_function_told`: propext, Classical.choice, Quot.sound
* `PC.Info.after_function_told`: propext, Classical.choice, Quot.sound
* `PC.Info.before_function_told`: propext, Classical.choice, Quot.sound
* `PC.Info.wrap_function_told`: propext, Classical.choice, Quot.sound
* `PC.Info.schema_name_outside`: propext, Quot.sound
* `PC.Info.handler_forgets_name`: none
* `PC.Info.default_told_outer_name`: propext
* `PC.Info.extra_told_outer`: propext
* `PC.AssignFn.no_functions`: propext
* `PC.AssignFn.inner_functions_atomic`: propext
* `PC.AssignFn.frozen_asks_nothing`: propext
* `PC.AssignFn.before_cannot_change_value`: propext, Quot.sound
* `PC.AssignFn.after_result_used`: propext, Quot.sound
* `PC.AssignFn.outer_functions_atomic_partial`: propext, Quot.sound
* `PC.AssignFn.after_failure_keeps`: propext
* `PC.AssignFn.assignment_not_atomic`: propext
* `PC.AssignFn.outer_functions_reach`: propext, Quot.sound
* `PC.AssignFn.straight_success`: propext
* `PC.AssignFn.wrap_passes_on`: Quot.sound
* `PC.AssignFn.outer_functions_touch_one`: propext, Quot.sound
* `PC.AssignFn.dataclass_functions_atomic_partial`: propext, Quot.sound
* `PC.AssignFn.before_bypasses_validation`: propext
* `PC.AssignFn.told_assigned_name`: propext, Quot.sound
* `PC.AssignFn.told_assigned_name_inner`: propext, Quot.sound
* `PC.AssignFn.entry_told`: none
* `PC.Count.model_count`: propext, Quot.sound
* `PC.Count.dict_count`: propext, Quot.sound
* `PC.Count.dataclass_count`: propext, Quot.sound
* `PC.Count.smart_union_most_fields`: propext, Classical.choice, Quot.sound
* `PC.Count.noinit_default_counted`: propext
* `PC.Count.failed_member_counted`: propext
* `PC.Dflt.default_isolated_partial`: propext, Classical.choice, Quot.sound
* `PC.Dflt.instance_default_shared`: propext, Classical.choice, Quot.sound
