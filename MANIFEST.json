{
 "claims": [
  {
   "property": "C01",
   "status": "partial",
   "theorems": [
    "PC.Union.smart_union_best_partial",
    "PC.Union.smart_union_sound",
    "PC.Union.smart_union_accepts_iff",
    "PC.Union.smart_union_first_exact_wins",
    "PC.Union.smart_union_propagates",
    "PC.Union.attempts_independent",
    "PC.Union.smart_union_mixed_not_best"
   ],
   "note": "Best choice proved when either all or none of the successful members report a fields-set count; the mixed case is refuted by witness."
  },
  {
   "property": "C02",
   "status": "proved",
   "theorems": [
    "PC.Union.left_to_right_first",
    "PC.Union.left_to_right_accepts",
    "PC.Union.left_to_right_ignores_later"
   ],
   "note": ""
  },
  {
   "property": "C03",
   "status": "proved",
   "theorems": [
    "PC.Union.smart_union_errors",
    "PC.Union.left_to_right_errors"
   ],
   "note": ""
  },
  {
   "property": "C04",
   "status": "proved",
   "theorems": [
    "PC.Union.tagged_union_dispatch",
    "PC.Union.tagged_union_other_members_irrelevant"
   ],
   "note": ""
  },
  {
   "property": "C05",
   "status": "partial",
   "theorems": [
    "PC.Guard.tracking_restored_partial",
    "PC.Guard.guard_leaks_after_depth",
    "PC.Guard.guard_depth_leaks_on_saturating_platforms"
   ],
   "note": "Holds when no traversal exceeds the depth limit; the code leaks one key (and one depth level on some platforms) after a depth refusal, proved by witness."
  },
  {
   "property": "C06",
   "status": "partial",
   "theorems": [
    "PC.Guard.cycle_detection_exact_partial",
    "PC.Guard.guard_never_panics"
   ],
   "note": "Exact below the depth limit."
  },
  {
   "property": "C07",
   "status": "proved",
   "theorems": [
    "PC.Guard.nesting_bounded",
    "PC.Engine.python_validation_ends",
    "PC.Engine.finite_validation_ends",
    "PC.Engine.json_recursion_may_not_end"
   ],
   "note": "Python object graphs of any shape, any schema of the modelled language, any Python functions that end: the result is reached within recursion_limit + 1 nested references. JSON data takes no guard: it ends when no definition refers to itself on the same input (finite_validation_ends), and need not otherwise (json_recursion_may_not_end)."
  },
  {
   "property": "C08",
   "status": "proved",
   "theorems": [
    "PC.Lookup.lookup_dict_first",
    "PC.Lookup.lookup_dict_raises",
    "PC.Lookup.lookup_mapping_first",
    "PC.Lookup.lookup_attr_first",
    "PC.Lookup.lookup_kwargs_first",
    "PC.Lookup.lookup_by_nothing",
    "PC.Lookup.lookup_by_something"
   ],
   "note": ""
  },
  {
   "property": "C09",
   "status": "proved",
   "theorems": [
    "PC.Lookup.json_python_lookup_agree",
    "PC.Lookup.json_last_key_wins"
   ],
   "note": ""
  },
  {
   "property": "C10",
   "status": "partial",
   "theorems": [
    "PC.Fields.model_output_field",
    "PC.Fields.model_output_declared",
    "PC.Fields.typed_dict_output",
    "PC.Fields.typed_dict_required_partial",
    "PC.Fields.typed_dict_required_lost"
   ],
   "note": "Models: proved in full. Typed dicts: a required field whose value cannot be read is dropped silently (witness)."
  },
  {
   "property": "C100",
   "status": "partial",
   "theorems": [
    "PC.LaxRetry.answer_exists",
    "PC.LaxRetry.never_wrongly_yes",
    "PC.LaxRetry.first_answer",
    "PC.LaxRetry.every_answer_partial",
    "PC.LaxRetry.answer_stays",
    "PC.LaxRetry.history_matters"
   ],
   "note": "Proved for definitions that are not recursive. For recursive ones it is false (history_matters); what holds: yes is always right, the first answer is right, and an answer given stays."
  },
  {
   "property": "C101",
   "status": "partial",
   "theorems": [
    "PC.Naming.name_exists",
    "PC.Naming.name_short",
    "PC.Naming.name_full_partial",
    "PC.Naming.name_stays",
    "PC.Naming.name_history"
   ],
   "note": "Independence of the history is proved for definitions that are not recursive; for recursive ones it is false (name_history), but every name is an abbreviation of the infinite name (name_short) and names of references stay (name_stays)."
  },
  {
   "property": "C102",
   "status": "partial",
   "theorems": [
    "PC.LaxRetry.no_waiting",
    "PC.LaxRetry.one_computation",
    "PC.LaxRetry.cached_once",
    "PC.LaxRetry.threads_never_wrongly_yes",
    "PC.LaxRetry.alone_is_ask",
    "PC.LaxRetry.threads_spoil"
   ],
   "note": "All but the last part is proved; that every thread is told what it would be told on its own is false even for definitions that are not recursive (threads_spoil)."
  },
  {
   "property": "C103",
   "status": "partial",
   "theorems": [
    "PC.Settings.settings_rule",
    "PC.Settings.first_entry_decides",
    "PC.Settings.first_length_decides",
    "PC.Settings.extra_rule",
    "PC.Settings.none_hides_config",
    "PC.Settings.outer_config_ignored",
    "PC.Settings.same_settings_partial",
    "PC.Settings.typed_dict_settings_differ",
    "PC.Settings.model_and_fields_agree_partial",
    "PC.Settings.model_and_fields_differ",
    "PC.Settings.definition_changes_settings"
   ],
   "note": "The rule is proved for every nesting. Three parts are false: typed dict serialisers ignore their own configuration (typed_dict_settings_differ), definitions are built with the configuration around them (definition_changes_settings), and None hides the configuration (none_hides_config); a model and its fields may differ (model_and_fields_differ)."
  },
  {
   "property": "C104",
   "status": "partial",
   "theorems": [
    "PC.Cause.cause_exact",
    "PC.Cause.notes_exact",
    "PC.Cause.cause_off",
    "PC.Cause.two_notes",
    "PC.Cause.notes_pile_up"
   ],
   "note": "All but the last sentence is proved. The last is false: behind a wrap function an exception also gets a note with the location inside (two_notes), and an exception raised again keeps the notes of earlier validations (notes_pile_up). Python 3.11 and later."
  },
  {
   "property": "C105",
   "status": "proved",
   "theorems": [
    "PC.In.lax_int_iff",
    "PC.In.lax_bool_iff",
    "PC.In.lax_str_iff",
    "PC.In.lax_float_iff",
    "PC.In.lax_bytes_iff",
    "PC.In.lax_errors",
    "PC.In.strings_as_lax_text"
   ],
   "note": "The table is Spec/LaxTable.lean. How a text reads as an int is C25 (strAsInt), as a float a parameter (Rust's parse)."
  },
  {
   "property": "C106",
   "status": "proved",
   "theorems": [
    "PC.Time.date_iff",
    "PC.Time.time_iff",
    "PC.Time.datetime_iff",
    "PC.Time.timedelta_iff",
    "PC.Time.duration_to_delta_iff",
    "PC.Time.subclass_length",
    "PC.Time.datetime_from_date_text",
    "PC.Time.temporal_errors",
    "PC.Time.temporal_json_errors"
   ],
   "note": "The table is Spec/TemporalTable.lean. What a number of seconds means is C32-C34 and C63, how a text reads is a parameter (speedate)."
  },
  {
   "property": "C107",
   "status": "partial",
   "theorems": [
    "PC.TagLookup.serializer_choice_iff",
    "PC.TagLookup.serializer_choice_none",
    "PC.TagLookup.same_choice_partial",
    "PC.TagLookup.tag_iff",
    "PC.TagLookup.tag_as_validated",
    "PC.TagLookup.serialized_by_its_choice_partial",
    "PC.TagLookup.unknown_tag_silent",
    "PC.TagLookup.no_tag_warns",
    "PC.TagLookup.int_and_text_keys_collide",
    "PC.TagLookup.equal_tag_not_found",
    "PC.TagLookup.function_none_and_raise"
   ],
   "note": "False in full: the serialiser looks choices up by str() of the key and of the tag. Proved for keys that print differently from each other and tags that print as the key they equal; witnesses for the keys 1 and '1', for enum members and for True. A discriminator function that returns None or raises is treated differently from validation."
  },
  {
   "property": "C108",
   "status": "proved",
   "theorems": [
    "PC.Report.field_reads_iff",
    "PC.Report.known_error_iff",
    "PC.Report.known_error_refused",
    "PC.Report.message_by_input",
    "PC.Report.line_fails_iff",
    "PC.Report.json_fails_iff"
   ],
   "note": "Texts of the TypeErrors are shortened to the name of the field. How other objects convert to ints, floats and texts is a parameter."
  },
  {
   "property": "C109",
   "status": "proved",
   "theorems": [
    "PC.Pat.compile_iff",
    "PC.Pat.compiled_ignores_engine",
    "PC.Pat.unknown_engine_refused",
    "PC.Pat.buildPattern_iff",
    "PC.Pat.string_outcome_iff",
    "PC.Pat.string_schema_iff",
    "PC.Pat.broken_text_iff",
    "PC.Pat.text_means_itself_partial",
    "PC.Pat.enum_pattern",
    "PC.Pat.wrong_engine_unnoticed",
    "PC.Pat.trivial_bound_refuses"
   ],
   "note": "The regex engines and case mappings are parameters; the exception of a Python pattern is a value. text_means_itself_partial: that a pattern given as text means that text is false for members of enums (enum_pattern)."
  },
  {
   "property": "C11",
   "status": "partial",
   "theorems": [
    "PC.Fields.fields_set_exact",
    "PC.Fields.fields_set_allow",
    "PC.Fields.fields_set_contains_defaulted",
    "PC.Fields.fields_set_counted"
   ],
   "note": "Exact when extras are not kept; with extra=allow an extra key equal to a defaulted field's name puts that name into the set (witness)."
  },
  {
   "property": "C110",
   "status": "proved",
   "theorems": [
    "PC.LazyWarn.call_exact",
    "PC.LazyWarn.call_stops",
    "PC.LazyWarn.error_mode_never_recovers",
    "PC.LazyWarn.warnings_repeat",
    "PC.LazyWarn.silent_without_warnings",
    "PC.LazyWarn.jsonLoop_exact",
    "PC.LazyWarn.json_warns_once",
    "PC.LazyWarn.second_item_lost"
   ],
   "note": "Sources that raise and filters of a wrong type are modelled but not in these theorems (C64 has them). That a call warns only of its own item is false (second_item_lost)."
  },
  {
   "property": "C111",
   "status": "proved",
   "theorems": [
    "PC.Computed.python_asks_once",
    "PC.Computed.jsonLoop_iff",
    "PC.Computed.json_run_iff",
    "PC.Computed.json_asks_twice",
    "PC.Computed.pure_agrees",
    "PC.Computed.round_trip_asks_none",
    "PC.Computed.null_despite_exclude_none"
   ],
   "note": "Serialisers of the values are functions without effects. That each property is asked once is false in JSON mode (null_despite_exclude_none)."
  },
  {
   "property": "C112",
   "status": "proved",
   "theorems": [
    "PC.FromAttr.applicable_iff",
    "PC.FromAttr.read_as_iff",
    "PC.FromAttr.not_read_error",
    "PC.FromAttr.not_read_model_error",
    "PC.FromAttr.strict_only_refuses_partial",
    "PC.FromAttr.strict_reads_mapping_by_attributes",
    "PC.FromAttr.attributes_give_no_extras",
    "PC.FromAttr.forbid_not_enforced",
    "PC.FromAttr.pair_prefers_dict"
   ],
   "note": "Whether an object is a dict, a mapping or a pair and what its attributes are is asked of Python. That strict mode only refuses holds without from_attributes (strict_only_refuses_partial) and is false with it (strict_reads_mapping_by_attributes)."
  },
  {
   "property": "C113",
   "status": "proved",
   "theorems": [
    "PC.BuildErr.built_iff_sound",
    "PC.BuildErr.error_iff_first_wrong",
    "PC.BuildErr.schema_error_unless_no_schema",
    "PC.BuildErr.report_text",
    "PC.BuildErr.no_type_alone_and_inside"
   ],
   "note": "A schema is what its build does in order: tests of its own and schemas inside; which tests those are is not modelled here. Errors of definitions are those of C30."
  },
  {
   "property": "C114",
   "status": "partial",
   "theorems": [
    "PC.SerSet.python_accepts_iff",
    "PC.SerSet.python_set_of_different",
    "PC.SerSet.json_mode_list",
    "PC.SerSet.to_json_array",
    "PC.SerSet.same_items_partial",
    "PC.SerSet.other_kind_inferred",
    "PC.SerSet.items_merged",
    "PC.SerSet.set_of_models_raises"
   ],
   "note": "All but the last sentence is proved in full; the last is false in Python mode when items are serialised alike (items_merged), and proved when they are not (same_items_partial). Sets of models raise in Python mode (set_of_models_raises). Hash and equality of values are parameters."
  },
  {
   "property": "C115",
   "status": "partial",
   "theorems": [
    "PC.ExclDefault.compares_iff",
    "PC.ExclDefault.dropped_iff",
    "PC.ExclDefault.all_kept",
    "PC.ExclDefault.restored_partial",
    "PC.ExclDefault.default_replaces_equal",
    "PC.ExclDefault.inside_function_lost",
    "PC.ExclDefault.factory_gives_another",
    "PC.ExclDefault.default_written"
   ],
   "note": "The first sentence is proved in full. The second is proved for defaults that are values and outermost in the schema (restored_partial); it is false for defaults inside validator functions, which are left out and then missing (inside_function_lost), and for factories that do not always give the same (factory_gives_another). Copies of defaults are left out (C99)."
  },
  {
   "property": "C116",
   "status": "proved",
   "theorems": [
    "PC.SerConfig.written_iff",
    "PC.SerConfig.built_iff",
    "PC.SerConfig.leafMode_iff",
    "PC.SerConfig.modes_iff",
    "PC.SerConfig.typed_dict_config_ignored",
    "PC.SerConfig.to_json_modes",
    "PC.SerConfig.any_field_not_in_scope",
    "PC.SerConfig.same_instance_elsewhere",
    "PC.SerConfig.own_config_does_not_govern",
    "PC.SerConfig.typed_dict_config_lost",
    "PC.SerConfig.defaults_differ",
    "PC.SerConfig.wrong_mode_unnoticed"
   ],
   "note": "For schemas of the three types, any, lists, typed dicts and models (dataclasses are built the same way). Left out: keys of dicts, unions, functions, computed fields, references, to_python(mode='json'). The instances met where the type is unknown have the serialiser that their schema gives. That all of an instance is written as its own model's configuration says is false (own_config_does_not_govern), and the configuration in the schema of a typed dict is not read (typed_dict_config_lost)."
  },
  {
   "property": "C117",
   "status": "partial",
   "theorems": [
    "PC.DupKeys.lookup_agrees",
    "PC.DupKeys.dict_exact",
    "PC.DupKeys.dict_accepts_iff",
    "PC.DupKeys.dict_same_partial",
    "PC.DupKeys.dict_errors_kept",
    "PC.DupKeys.model_ignore_same",
    "PC.DupKeys.model_forbid_accepts",
    "PC.DupKeys.model_errors",
    "PC.DupKeys.model_allow_same_partial",
    "PC.DupKeys.keys_same_iff",
    "PC.DupKeys.replaced_value_refused",
    "PC.DupKeys.merged_keys_differ",
    "PC.DupKeys.dict_not_as_python",
    "PC.DupKeys.model_not_as_python"
   ],
   "note": "Proved in full for models that ignore extra items, and as far as acceptance and output go for those that forbid them. False for dict schemas and for models that keep extra items: pairs that are replaced by later ones are validated and reported too (replaced_value_refused, model_not_as_python). What is accepted is accepted of the Python dict with the same output (model_allow_same_partial, dict_same_partial; the latter if the validator of keys keeps keys apart, else merged_keys_differ), and no error is lost (dict_errors_kept). Aliases, defaults, validators that omit or raise, and partial mode are left out. That jiter keeps repeated keys in order is as comments in the code say."
  },
  {
   "property": "C118",
   "status": "partial",
   "theorems": [
    "PC.Lit.text_bool",
    "PC.Lit.text_as_python_partial",
    "PC.Lit.text_as_python_iff",
    "PC.Lit.text_int_refused",
    "PC.Lit.enum_text_any_mode",
    "PC.Lit.int_enum_text",
    "PC.Lit.listed_text_taken_for_bool",
    "PC.Lit.text_not_as_python"
   ],
   "note": "True exactly for literals that list no bool (text_as_python_iff). With a bool listed, every text that stands for it is accepted and gives the bool, even if that very text is listed too (text_bool, listed_text_taken_for_bool); all other text is validated as in Python. Literals of ints take no text (text_int_refused), enums of ints do, in strict mode too. That two objects equal as keys are found in dicts is assumed as for C29."
  },
  {
   "property": "C119",
   "status": "partial",
   "theorems": [
    "PC.TextUnion.union_picks",
    "PC.TextUnion.strings_first",
    "PC.TextUnion.key_given_to_str",
    "PC.TextUnion.key_any_mode",
    "PC.TextUnion.value_as_key_partial",
    "PC.TextUnion.date_as_key",
    "PC.TextUnion.int_in_strings",
    "PC.TextUnion.strict_key_converted",
    "PC.TextUnion.not_same_everywhere"
   ],
   "note": "union_picks says exactly which member takes the text in each place. The claim fails: a date or a decimal is text as a key where it is a date as a value (date_as_key), and validate_strings gives text to the first member that reads it, smart or not (strings_first, int_in_strings). It holds between values and keys for str, bytes, bool, int, float and complex (value_as_key_partial). What is read from a text is a parameter, the same for all places, as the code calls the same functions; constraints of members are left out."
  },
  {
   "property": "C12",
   "status": "partial",
   "theorems": [
    "PC.Fields.model_errors_ignore",
    "PC.Fields.model_errors_forbid",
    "PC.Fields.model_errors_allow",
    "PC.Fields.model_field_raises",
    "PC.Fields.not_a_model",
    "PC.Fields.iteration_error_hides_field_errors",
    "PC.Fields.typed_dict_errors_ignore",
    "PC.Fields.typed_dict_errors_forbid",
    "PC.Fields.typed_dict_errors_allow",
    "PC.Fields.typed_dict_field_raises",
    "PC.Fields.typed_dict_required_lost"
   ],
   "note": "Exact error lists for all policies; an error of iterating over the items hides the field errors, and typed dicts drop read errors (witnesses)."
  },
  {
   "property": "C120",
   "status": "partial",
   "theorems": [
    "PC.SerErr.to_json_raises",
    "PC.SerErr.to_json_class",
    "PC.SerErr.to_json_ends",
    "PC.SerErr.to_python_raises",
    "PC.SerErr.to_python_same",
    "PC.SerErr.to_json_unknown",
    "PC.SerErr.to_python_unknown",
    "PC.SerErr.same_unknown_partial",
    "PC.SerErr.to_json_mismatch",
    "PC.SerErr.to_python_mismatch",
    "PC.SerErr.unexpected_says",
    "PC.SerErr.unexpected_empty",
    "PC.SerErr.not_same_raised",
    "PC.SerErr.marker_name"
   ],
   "note": "The claim fails (not_same_raised): to_python raises exceptions of called code as they are, to_json turns them into the text of a PydanticSerializationError. It holds for values of unknown type outside keys and json schemas (same_unknown_partial). What is raised is said exactly for every way: to_json_raises, to_python_raises, to_json_unknown, to_python_unknown, to_json_mismatch, to_python_mismatch. Functions of function schemas, which wrap exceptions themselves, are in the model of C84."
  },
  {
   "property": "C121",
   "status": "partial",
   "theorems": [
    "PC.WarnMode.none_mode",
    "PC.WarnMode.error_mode",
    "PC.WarnMode.warn_mode",
    "PC.WarnMode.only_warns_partial",
    "PC.WarnMode.returned_same_partial",
    "PC.WarnMode.warn_same",
    "PC.WarnMode.warn_issued",
    "PC.WarnMode.issued_repeatedly",
    "PC.WarnMode.error_mode_swallowed",
    "PC.WarnMode.nul_raises"
   ],
   "note": "only_warns_partial: the claim for serialisations that call no wrap function, with the exact outcome and the warnings issued in each mode (error_mode, warn_mode). With wrap functions it holds for 'none' (none_mode), and for 'warn' if no text has a NUL and Python makes no warning an exception (warn_same), with the exact sequence of warnings issued, some of them repeatedly (warn_issued, issued_repeatedly). In every mode a value that is returned is the same if nothing catches what functions and handlers raise (returned_same_partial). It fails for 'error' otherwise (error_mode_swallowed): the handler raises the warnings, and a function that catches that changes the value. Serialisations are programs over CollectWarnings, not those of a schema; lazily serialised generators are in the model of C110."
  },
  {
   "property": "C13",
   "status": "proved",
   "theorems": [
    "PC.Fields.extra_ignored",
    "PC.Fields.extra_forbidden_iff",
    "PC.Fields.extra_allowed_kept",
    "PC.Fields.extra_allowed_validated",
    "PC.Fields.extra_omit_escapes",
    "PC.Fields.typed_dict_extra_ignored",
    "PC.Fields.typed_dict_errors_forbid",
    "PC.Fields.typed_dict_errors_allow"
   ],
   "note": ""
  },
  {
   "property": "C14",
   "status": "partial",
   "theorems": [
    "PC.Fields.extra_never_replaces_field",
    "PC.Fields.typed_dict_field_kept_partial",
    "PC.Fields.typed_dict_extra_replaces_field"
   ],
   "note": "Models: proved. Typed dicts: false in the code (witness); proved when no extra key equals a field name."
  },
  {
   "property": "C15",
   "status": "partial",
   "theorems": [
    "PC.Fields.assignment_atomic",
    "PC.Fields.frozen_model_rejects",
    "PC.Fields.frozen_field_rejects",
    "PC.Fields.unknown_attribute_rejects",
    "PC.Fields.assignment_touches_one",
    "PC.Fields.assignment_touches_one_partial",
    "PC.Fields.assignment_touches_others",
    "PC.Fields.assignment_moves_to_extra",
    "PC.Fields.root_assignment"
   ],
   "note": "Proved, with extras kept only for instances whose extras do not collide with field names and whose __dict__ holds only fields; both conditions are necessary (witnesses)."
  },
  {
   "property": "C16",
   "status": "proved",
   "theorems": [
    "PC.Coll.list_accepts_iff",
    "PC.Coll.list_errors",
    "PC.Coll.list_other_errors",
    "PC.Coll.list_iteration_error",
    "PC.Coll.empty_rejection_drops_item"
   ],
   "note": "Item validators are assumed to reject with at least one error; the witness shows what happens otherwise."
  },
  {
   "property": "C17",
   "status": "partial",
   "theorems": [
    "PC.Coll.list_accepts_iff",
    "PC.Coll.count_is_output_length",
    "PC.Coll.list_too_long",
    "PC.Coll.list_too_short",
    "PC.Coll.lookahead_refines",
    "PC.Coll.list_examines_partial",
    "PC.Coll.list_pulls_one_more",
    "PC.Coll.untyped_list_bounds",
    "PC.Coll.set_accepts_iff",
    "PC.Coll.set_too_long",
    "PC.Coll.dict_accepts_iff"
   ],
   "note": "Bounds exact; at most max_length+1 items are validated, but max_length+2 are pulled because of the look-ahead (witness)."
  },
  {
   "property": "C18",
   "status": "proved",
   "theorems": [
    "PC.Coll.list_fail_fast_verdict",
    "PC.Coll.list_fail_fast_errors",
    "PC.Coll.set_fail_fast_verdict",
    "PC.Coll.tuple_fail_fast_verdict"
   ],
   "note": ""
  },
  {
   "property": "C19",
   "status": "partial",
   "theorems": [
    "PC.Coll.list_partial_accepts",
    "PC.Coll.list_partial_rejects",
    "PC.Coll.list_partial_complete",
    "PC.Coll.dict_partial_value",
    "PC.Coll.dict_partial_key_reported",
    "PC.Coll.tuple_ignores_partial",
    "PC.Coll.union_tuple_disables_partial",
    "PC.Fields.typed_dict_complete_errors",
    "PC.Fields.typed_dict_forgives_only_last"
   ],
   "note": "Lists and dict values; an error of the last dict key is still reported, and a tuple member switches partial mode off for the rest of a union (witnesses)."
  },
  {
   "property": "C20",
   "status": "proved",
   "theorems": [
    "PC.Coll.dict_accepts_iff",
    "PC.Coll.dict_errors",
    "PC.Coll.dict_later_wins",
    "PC.Coll.dict_keys"
   ],
   "note": ""
  },
  {
   "property": "C21",
   "status": "proved",
   "theorems": [
    "PC.Coll.set_accepts_iff",
    "PC.Coll.distinct_spec",
    "PC.Coll.set_errors"
   ],
   "note": ""
  },
  {
   "property": "C22",
   "status": "partial",
   "theorems": [
    "PC.Coll.tuple_accepts_iff",
    "PC.Coll.slots_spec",
    "PC.Coll.tuple_errors_partial",
    "PC.Coll.tuple_errors_reported",
    "PC.Coll.tuple_too_long",
    "PC.Coll.tuple_too_many",
    "PC.Coll.tuple_never_panics",
    "PC.Coll.tuple_tail_index_off_by_one",
    "PC.Coll.tuple_iteration_error_index",
    "PC.Coll.tuple_defaults_bypass_max",
    "PC.Coll.tuple_spurious_too_short"
   ],
   "note": "Acceptance and output exact for all schemas. Error locations exact unless items are validated after a run of variadic items, where the code reports index-1 (witness; the exact behaviour is tuple_errors_reported)."
  },
  {
   "property": "C23",
   "status": "partial",
   "theorems": [
    "PC.Num.int_constraints_exact_partial",
    "PC.Num.multiple_of_zero_panics",
    "PC.Num.multiple_of_minus_one_panics",
    "PC.Num.constraints_not_exact",
    "PC.Num.int_error_kind"
   ],
   "note": "Exact whenever the remainder is defined; multiple_of=0 and i64::MIN % -1 panic (witnesses)."
  },
  {
   "property": "C24",
   "status": "partial",
   "theorems": [
    "PC.IntParse.int_literal_accepted",
    "PC.IntParse.accepted_is_literal_partial",
    "PC.IntParse.accepts_junk",
    "PC.IntParse.strings_disagree",
    "PC.IntParse.junk_rejected"
   ],
   "note": "Every Python integer literal is accepted with its value; the converse holds for tidy strings, the code also accepts e.g. '0-1' (witness)."
  },
  {
   "property": "C25",
   "status": "proved",
   "theorems": [
    "PC.Float.float_as_int_exact",
    "PC.Float.float_as_int_errors",
    "PC.Float.min_float_rejected",
    "PC.Float.decimal_as_int_exact",
    "PC.In.lax_int_decimal",
    "PC.In.lax_int_float"
   ],
   "note": ""
  },
  {
   "property": "C26",
   "status": "partial",
   "theorems": [
    "PC.Str.space_iff",
    "PC.Str.str_constraints_exact",
    "PC.Str.str_constraints_hold_partial",
    "PC.Str.upper_exceeds_max_length",
    "PC.Str.constraints_fail",
    "PC.Str.stripped_unique"
   ],
   "note": "Length bounds are tested before case mapping, so the result can violate them (witness); exact characterisation and the length-preserving case proved."
  },
  {
   "property": "C27",
   "status": "partial",
   "theorems": [
    "PC.Comb.default_not_used",
    "PC.Comb.default_used_unvalidated",
    "PC.Comb.default_used_validated",
    "PC.Comb.factory_called_partial",
    "PC.Comb.factory_given_tuple",
    "PC.Comb.default_terminates_partial",
    "PC.Comb.default_invalid_diverges",
    "PC.Comb.default_missing_panics"
   ],
   "note": "Termination fails for validate_default with on_error='default' and an invalid default (witness)."
  },
  {
   "property": "C28",
   "status": "partial",
   "theorems": [
    "PC.In.strict_lax_int",
    "PC.In.strict_lax_bool",
    "PC.In.strict_lax_str",
    "PC.In.strict_lax_bytes",
    "PC.In.strict_lax_decimal",
    "PC.In.strict_lax_float_partial",
    "PC.In.strict_float_str",
    "PC.In.strict_not_lax_float",
    "PC.In.strict_lax_json",
    "PC.In.strict_lax_string",
    "PC.Time.instances_kept",
    "PC.Time.strict_lax_temporal",
    "PC.Time.strict_lax_temporal_json",
    "PC.Time.strict_lax_date_schema",
    "PC.Time.strict_lax_datetime_schema",
    "PC.Engine.strict_accepted_means_lax_accepted_partial",
    "PC.Engine.left_to_right_strict_not_lax",
    "PC.Engine.smart_union_of_dicts_strict_not_lax",
    "PC.Engine.mapping_attributes_strict_not_lax",
    "PC.Engine.wrap_strict_not_lax",
    "PC.Engine.lax_or_strict_strict_not_lax"
   ],
   "note": "Scalars and temporal values from all kinds of input; containers, typed dicts, models, tagged unions, smart unions of scalars, functions and recursive definitions in the schema engine. Fails for floats read from str subclasses that define __float__, left-to-right unions, smart unions of typed dicts, Mappings read by attributes, wrap functions and lax-or-strict schemas (witnesses). Missing: dataclasses."
  },
  {
   "property": "C29",
   "status": "partial",
   "theorems": [
    "PC.Lit.literal_sound",
    "PC.Lit.literal_complete_partial",
    "PC.Lit.literal_big_int_rejected",
    "PC.Lit.literal_same_type",
    "PC.Lit.literal_accepts_bool_for_int",
    "PC.Lit.literal_not_exact",
    "PC.Lit.literal_rejects_listed_int",
    "PC.In.json_literal_agrees"
   ],
   "note": "Exact up to Python equality; bools are accepted for equal ints and vice versa when not both listed, and ints above 64 bits are rejected when a smaller int is listed (witnesses)."
  },
  {
   "property": "C30",
   "status": "partial",
   "theorems": [
    "PC.Defs.builds_iff",
    "PC.Defs.errors_are_right",
    "PC.Defs.references_resolve_partial",
    "PC.Defs.same_name_same_definition",
    "PC.Defs.no_panic_while_owned",
    "PC.Defs.dropped_owner_panics"
   ],
   "note": "Proved for every schema tree. References are weak: a lazily validated generator or a wrap handler that outlives its SchemaValidator panics at the first reference (witness)."
  },
  {
   "property": "C31",
   "status": "proved",
   "theorems": [
    "PC.Comb.location_outermost_first",
    "PC.Comb.location_round_trip",
    "PC.Comb.location_never_empty_list",
    "PC.Lookup.value_error_location",
    "PC.Lookup.missing_error_location"
   ],
   "note": ""
  },
  {
   "property": "C32",
   "status": "partial",
   "theorems": [
    "PC.Time.timedelta_round_trip",
    "PC.Time.delta_new_exact",
    "PC.Time.timedelta_text",
    "PC.Time.delta_to_duration_value",
    "PC.Time.duration_to_delta_value",
    "PC.Time.int_seconds_exact_partial",
    "PC.Time.int_seconds_wrap",
    "PC.Time.not_int_seconds_exact",
    "PC.Time.float_seconds_near"
   ],
   "note": "Round trip in full. Integers of 2^32 days and more wrap around (witness). Floats to within one microsecond, given that the floating-point product is."
  },
  {
   "property": "C33",
   "status": "partial",
   "theorems": [
    "PC.Time.float_timestamp_near_partial",
    "PC.Time.negative_timestamp_wrong",
    "PC.Time.not_float_timestamp_near"
   ],
   "note": "Fails for negative timestamps with a fraction (witness). speedate's calendar is a parameter."
  },
  {
   "property": "C34",
   "status": "partial",
   "theorems": [
    "PC.Time.tz_in_range_partial",
    "PC.Time.tz_new_exact_partial",
    "PC.Time.tz_min_accepted",
    "PC.Time.not_tz_in_range",
    "PC.Time.tz_str_faithful",
    "PC.Time.tz_str_injective",
    "PC.Time.tz_utcoffset",
    "PC.Time.tz_cmp",
    "PC.Time.tz_eq_iff",
    "PC.Time.tz_eq_not_transitive"
   ],
   "note": "The smallest 32-bit offset is accepted in release builds (witness); equality with other timezones is up to rounding, hence not transitive (tz_eq_not_transitive)."
  },
  {
   "property": "C35",
   "status": "partial",
   "theorems": [
    "PC.Args.args_sound_partial",
    "PC.Args.args_complete_partial",
    "PC.Args.args_errors_reported_partial",
    "PC.Args.args_errors_only_partial",
    "PC.Args.args_alias_collision",
    "PC.Args.args_alias_twice",
    "PC.Args.args_default_error",
    "PC.Args.args_empty_error_shifts",
    "PC.Args.args_unpacked_overwrites",
    "PC.Args.args_extra_ignored"
   ],
   "note": "Proved both ways for signatures without aliases, extra='forbid', uniform or no **kwargs: accepted calls bind in Python, the output binds, each parameter/*args/**kwargs gets the validated form of what Python gives it; callable valid calls are accepted; duplicate/missing/unexpected arguments are each reported and nothing else is. Refuted (witnesses): with an alias a surplus keyword can overwrite a parameter or double it; a failing default hides collected errors; an argument rejected with no line errors is dropped and the next takes its place; unpacked **kwargs overwrite a parameter."
  },
  {
   "property": "C36",
   "status": "partial",
   "theorems": [
    "PC.Gen.next_exact_partial",
    "PC.Gen.next_any_source_partial",
    "PC.Gen.takes_one_at_a_time",
    "PC.Gen.index_counts",
    "PC.Gen.loop_exact_partial",
    "PC.Gen.loop_finishes_iff_partial",
    "PC.Gen.any_generator_ignores_max",
    "PC.Gen.any_generator_min"
   ],
   "note": "Exact with an item validator; without one (items_schema absent or any) max_length is not enforced (theorem)."
  },
  {
   "property": "C37",
   "status": "partial",
   "theorems": [
    "PC.Filter.select_exact_partial",
    "PC.Filter.no_filter_keeps_everything",
    "PC.Filter.exclude_beats_include",
    "PC.Filter.exclude_dict_beats_include",
    "PC.Filter.container_as_set",
    "PC.Filter.all_names_everything",
    "PC.Filter.container_refused",
    "PC.Filter.schema_sets",
    "PC.Filter.schema_filter_exact",
    "PC.Filter.filter_decision",
    "PC.Filter.merge_entry",
    "PC.Filter.merge_set_entry",
    "PC.Filter.set_as_dict",
    "PC.Filter.include_overrides_schema_exclude"
   ],
   "note": "Nested lists and dicts, call-time filters made of sets and dicts in range: exact. Merging with __all__ characterised key by key. With schema filters the call's include overrides the schema's exclude (witness)."
  },
  {
   "property": "C38",
   "status": "partial",
   "theorems": [
    "PC.Filter.index_refers_partial",
    "PC.Filter.index_includes_partial",
    "PC.Filter.index_modulo",
    "PC.Filter.index_out_of_range",
    "PC.Filter.index_unsized_negative"
   ],
   "note": "Exact in range; out of range the index is taken modulo the length and removes another item (witness)."
  },
  {
   "property": "C39",
   "status": "partial",
   "theorems": [
    "PC.Filter.exclude_monotone_partial",
    "PC.Filter.schema_exclude_monotone",
    "PC.Filter.exclude_set_grows",
    "PC.Filter.exclude_dict_grows",
    "PC.Filter.exclude_entry_brings_back",
    "PC.Filter.nested_exclude_overrides_schema",
    "PC.Filter.exclude_index_twice"
   ],
   "note": "Monotone at every depth for sets and for dicts without __all__; three ways in which an added entry brings an item back (witnesses)."
  },
  {
   "property": "C40",
   "status": "partial",
   "theorems": [
    "PC.SerFields.fields_exact_partial",
    "PC.SerFields.fields_in_order",
    "PC.SerFields.fields_sound",
    "PC.SerFields.fields_present",
    "PC.SerFields.fields_succeed",
    "PC.SerFields.complete_instance_accepted_partial",
    "PC.SerFields.clash_hides_field",
    "PC.SerFields.include_fails_in_union"
   ],
   "note": "Exact in both directions, including extras and computed fields, when no two outputs share a key; soundness and presence of keys without that. With a clash the last one wins (witness). In a union, include makes a complete instance fail (witness). serialize_as_any and root models are not modelled."
  },
  {
   "property": "C41",
   "status": "partial",
   "theorems": [
    "PC.SerFields.json_agrees_partial",
    "PC.SerFields.json_ignores_extra_serializer",
    "PC.SerFields.json_computed_none",
    "PC.SerFields.json_int_key",
    "PC.SerFields.json_int_key_none",
    "PC.SerFields.json_repeated_key"
   ],
   "note": "Proved given that inner serialisers agree, for string keys, no extras serialiser, and computed fields that are None exactly when serialised to None; each condition is necessary (witnesses)."
  },
  {
   "property": "C42",
   "status": "partial",
   "theorems": [
    "PC.SerUnion.union_strict",
    "PC.SerUnion.union_lax_partial",
    "PC.SerUnion.union_infers",
    "PC.SerUnion.union_nested_error",
    "PC.SerUnion.float_subclass_not_retried",
    "PC.SerUnion.attempt_warnings_stay",
    "PC.SerUnion.tagged_picks",
    "PC.SerUnion.tagged_falls_back",
    "PC.SerUnion.tagged_no_tag",
    "PC.SerUnion.tagged_lax_in_strict"
   ],
   "note": "Proved for members that leave the warnings alone while checked. The lax pass is skipped when no member announces it, so a float subclass in Union[float, str] is inferred with warnings (witness); members that record warnings of their own leave them behind (witness)."
  },
  {
   "property": "C43",
   "status": "partial",
   "theorems": [
    "PC.Trunc.short_text_in_full",
    "PC.Trunc.long_text_truncated_partial",
    "PC.Trunc.error_input_at_most_52_bytes",
    "PC.Trunc.zero_limit_panics",
    "PC.Trunc.floor_is_largest_boundary",
    "PC.Trunc.ceil_is_smallest_boundary"
   ],
   "note": "Every string and every positive limit; limit 0 panics (theorem), but both callers use 50."
  },
  {
   "property": "C44",
   "status": "proved",
   "theorems": [
    "PC.Bytes.bytes_round_trip",
    "PC.Bytes.bytes_written",
    "PC.Bytes.base64_exact",
    "PC.Bytes.hex_exact",
    "PC.Bytes.spells_injective",
    "PC.Bytes.alphabets_rfc4648",
    "PC.Bytes.encode64_bits",
    "PC.Bytes.hex_digits"
   ],
   "note": "base64 and hex crates as documented."
  },
  {
   "property": "C45",
   "status": "proved",
   "theorems": [
    "PC.Comb.convert_err_spec",
    "PC.Comb.function_raises_fails",
    "PC.Comb.function_ok",
    "PC.Comb.wrap_outcome",
    "PC.Comb.handler_outer_location"
   ],
   "note": ""
  },
  {
   "property": "C46",
   "status": "proved",
   "theorems": [
    "PC.Time.tz_check_exact",
    "PC.Time.constraints_exact",
    "PC.Time.now_op_exact",
    "PC.Time.datetime_accepts_iff",
    "PC.Time.constraint_error",
    "PC.Time.now_error",
    "PC.Time.timedelta_bounds_exact",
    "PC.Time.timedelta_subclass_bounds"
   ],
   "note": "The order on dates and times is speedate's, a parameter."
  },
  {
   "property": "C47",
   "status": "proved",
   "theorems": [
    "PC.Url.multihost_exact",
    "PC.Url.multihost_empty",
    "PC.Url.multihost_single",
    "PC.Url.multihost_no_scheme",
    "PC.Url.multihost_no_panic",
    "PC.Url.shape_exists",
    "PC.Url.shape_unique",
    "PC.Url.parseUrl_ok_iff"
   ],
   "note": "The url crate is a parameter."
  },
  {
   "property": "C48",
   "status": "partial",
   "theorems": [
    "PC.Msg.message_exact_partial",
    "PC.Msg.placeholders_provided",
    "PC.Msg.tag_rewrites_message",
    "PC.Msg.custom_value_rewritten"
   ],
   "note": "All 102 error types with their Python and JSON templates. The substitution is sequential, so a union tag (or a value of a custom error) that itself contains a later placeholder is rewritten (witnesses); exact whenever no text inserted before another contains an opening brace."
  },
  {
   "property": "C49",
   "status": "partial",
   "theorems": [
    "PC.Keys.tuple_key_joined",
    "PC.Keys.json_keys_distinct_partial",
    "PC.Keys.dict_entries_kept_partial",
    "PC.Keys.dict_last_wins",
    "PC.Keys.dict_fails_alike",
    "PC.Keys.comma_collision",
    "PC.Keys.shape_collision",
    "PC.Keys.empty_collision",
    "PC.Keys.type_collision",
    "PC.Keys.infinity_collision",
    "PC.Keys.entries_merged",
    "PC.Keys.excluded_item_collision",
    "PC.Infer.tuple_as_key",
    "PC.Infer.scalar_as_key"
   ],
   "note": "Fails in the code: tuples are joined by commas without escaping, so entries are merged (witnesses). Proved for keys of the same kind without commas in the parts of tuples, nested tuples included."
  },
  {
   "property": "C50",
   "status": "partial",
   "theorems": [
    "PC.Comb.exactness_is_minimum",
    "PC.Comb.exactness_untracked",
    "PC.Comb.combinators_never_raise",
    "PC.Comb.unions_never_raise_partial",
    "PC.Comb.left_to_right_failed_member_lowers",
    "PC.Union.smart_union_state",
    "PC.Union.smart_union_state_not_restored_on_omit"
   ],
   "note": "All combinators; unions when the members are ordinary. A failing member of a left-to-right union lowers the exactness, and a member that omits leaves the state changed (witnesses)."
  },
  {
   "property": "C51",
   "status": "proved",
   "theorems": [
    "PC.Comb.rebind_restores",
    "PC.Comb.combinators_keep_options",
    "PC.Comb.strict_precedence",
    "PC.Comb.alias_precedence"
   ],
   "note": ""
  },
  {
   "property": "C52",
   "status": "proved",
   "theorems": [
    "PC.Comb.isinstance_agrees"
   ],
   "note": ""
  },
  {
   "property": "C53",
   "status": "proved",
   "theorems": [
    "PC.Comb.nullable_spec",
    "PC.Comb.json_or_python_spec",
    "PC.Comb.chain_spec",
    "PC.Comb.chain_empty_rejected",
    "PC.Comb.chain_assoc",
    "PC.Comb.chain_first_failure"
   ],
   "note": ""
  },
  {
   "property": "C54",
   "status": "partial",
   "theorems": [
    "PC.Engine.accepted_output_conforms_partial",
    "PC.Engine.python_validation_sound_partial",
    "PC.Engine.extra_item_replaces_field",
    "PC.Engine.conforming_value_comes_back_partial",
    "PC.Engine.accepted_output_revalidates_partial",
    "PC.Engine.smart_union_of_dicts_not_idempotent",
    "PC.Engine.left_to_right_not_idempotent",
    "PC.Engine.default_not_revalidated",
    "PC.Engine.alias_not_revalidated",
    "PC.Engine.tagged_instance_refused"
   ],
   "note": "Soundness: all schemas of the modelled language without Python functions, recursive definitions included, all inputs. Not for typed dicts that allow extra items and look fields up by alias: there it is false (extra_item_replaces_field, finding 22). Validating again: all those schemas whose unions are smart unions of scalars with exact outputs, without lax-or-strict, with fields looked up by name and defaults of the field's type, tagged unions whose outputs carry the tag of their choice, models and root models (revalidated or not); outside it is false (witnesses: smart_union_of_dicts_not_idempotent, left_to_right_not_idempotent, default_not_revalidated, alias_not_revalidated, tagged_instance_refused). Missing: dataclasses, models with custom __init__ or post_init, functions."
  },
  {
   "property": "C55",
   "status": "partial",
   "theorems": [
    "PC.Engine.error_location_leads_to_input_partial",
    "PC.Engine.tuple_tail_location_off_by_one",
    "PC.Engine.before_function_location",
    "PC.Engine.after_function_location"
   ],
   "note": "All schemas without Python functions, recursive definitions included. Not for tuple items after variadic ones: there it is false (tuple_tail_location_off_by_one, finding 6). Field extras as for C54. Models, root models and tagged unions included; an instance that is revalidated stands for the dict of its attributes. With functions it is false in general: a before function makes the value that locations lead into (before_function_location), and a ValidationError raised by a function brings its own locations (after_function_location). Missing: dataclasses, functions that only check, (object, kwargs) pairs read by attributes."
  },
  {
   "property": "C56",
   "status": "partial",
   "theorems": [
    "PC.Comb.wrap_transparent_partial",
    "PC.Comb.wrap_drops_options"
   ],
   "note": "by_alias, by_name and partial mode are not forwarded (witness)."
  },
  {
   "property": "C57",
   "status": "proved",
   "theorems": [
    "PC.Float.float_constraints_exact",
    "PC.Float.float_schema_exact",
    "PC.Float.nan_within_no_bound"
   ],
   "note": ""
  },
  {
   "property": "C58",
   "status": "proved",
   "theorems": [
    "PC.IntParse.str_as_bool_exact"
   ],
   "note": ""
  },
  {
   "property": "C59",
   "status": "partial",
   "theorems": [
    "PC.Lit.int_enum_errors",
    "PC.Lit.enum_sound_partial",
    "PC.Lit.enum_strict_python",
    "PC.Lit.enum_int_accepted",
    "PC.Lit.enum_json_none_member",
    "PC.Lit.enum_not_sound"
   ],
   "note": "Python inputs: proved. JSON inputs: the class is called with None (witness)."
  },
  {
   "property": "C60",
   "status": "partial",
   "theorems": [
    "PC.In.json_python_agree",
    "PC.In.json_python_float_partial",
    "PC.In.json_big_int_is_infinite",
    "PC.Time.json_python_temporal_partial",
    "PC.Time.bool_timedelta_disagrees"
   ],
   "note": "Ints, bools, strings in full; floats except for ints too large for a double (witness); temporal values except bools as timedeltas (witness) and ints beyond 64 bits."
  },
  {
   "property": "C61",
   "status": "partial",
   "theorems": [
    "PC.In.strict_int_exact",
    "PC.In.strict_bool_exact",
    "PC.In.strict_str_exact",
    "PC.In.strict_bytes_exact",
    "PC.In.strict_never_lax",
    "PC.In.int_returns_int_partial",
    "PC.In.lax_int_returns_string"
   ],
   "note": "Strictness proved in full; the int schema returns the unchecked value of an enum member in lax mode (witness)."
  },
  {
   "property": "C62",
   "status": "proved",
   "theorems": [
    "PC.Time.date_of_datetime",
    "PC.Time.datetime_of_date",
    "PC.Time.date_of_datetime_text",
    "PC.Time.datetime_of_date_text",
    "PC.Time.text_refused"
   ],
   "note": ""
  },
  {
   "property": "C63",
   "status": "proved",
   "theorems": [
    "PC.Time.int_time_exact",
    "PC.Time.float_time_near",
    "PC.Time.time_text",
    "PC.Time.json_big_int"
   ],
   "note": "Given that speedate's clock counts and the floating-point product is within a microsecond."
  },
  {
   "property": "C64",
   "status": "proved",
   "theorems": [
    "PC.Gen.lazy_serialisation_agrees"
   ],
   "note": ""
  },
  {
   "property": "C65",
   "status": "partial",
   "theorems": [
    "PC.SerTuple.variadic_exact_partial",
    "PC.SerTuple.fixed_exact",
    "PC.SerTuple.fixed_exact_fits",
    "PC.SerTuple.tuple_items_serialised",
    "PC.SerTuple.variadic_short_shifted",
    "PC.Infer.tuple_extra_items_inferred",
    "PC.Infer.tuple_length_checked_in_union",
    "PC.Infer.tuple_schema_key_joined"
   ],
   "note": "Fails for variadic tuples with fewer items than fixed serialisers (witness); proved otherwise."
  },
  {
   "property": "C66",
   "status": "partial",
   "theorems": [
    "PC.Url.url_schema_iff",
    "PC.Url.url_exact",
    "PC.Url.defaults_exact",
    "PC.Url.filled_parts",
    "PC.Url.url_too_long",
    "PC.Url.url_wrong_scheme",
    "PC.Url.multi_exact_partial",
    "PC.Url.default_port_last_host_only"
   ],
   "note": "Exact both ways; in a multi-host URL the default port goes to the last host only (witness)."
  },
  {
   "property": "C67",
   "status": "partial",
   "theorems": [
    "PC.Url.unicode_exact_partial",
    "PC.Url.unicode_no_domain",
    "PC.Url.unicode_host_agrees",
    "PC.Url.decode_exact",
    "PC.Url.unicode_wrong_with_credentials"
   ],
   "note": "Proved for URLs without credentials; with credentials a wrong range is replaced (witness)."
  },
  {
   "property": "C68",
   "status": "partial",
   "theorems": [
    "PC.Url.multi_text",
    "PC.Url.multiStr_exact",
    "PC.Url.multiUnicode_exact_partial",
    "PC.Url.multi_roundtrip",
    "PC.Url.url_eq_same_text",
    "PC.Url.multi_hash_single_partial",
    "PC.Url.multi_hash_same_text",
    "PC.Url.multi_equal_but_hashed_differently"
   ],
   "note": "str and the round trip are proved; equality compares unicode forms while the hash is of the fields, and they disagree (witness)."
  },
  {
   "property": "C69",
   "status": "partial",
   "theorems": [
    "PC.Url.buildUrl_exact",
    "PC.Url.build_injective_partial",
    "PC.Url.build_ambiguous",
    "PC.Url.buildMulti_exact_partial",
    "PC.Url.buildMulti_empty_host",
    "PC.Url.buildMulti_single",
    "PC.Url.buildMulti_choice",
    "PC.Url.username_alone_refused"
   ],
   "note": "Nothing is escaped, so parts can be read back only if they are free of later marks (witness otherwise); a host with only a user name is refused (witness)."
  },
  {
   "property": "C70",
   "status": "partial",
   "theorems": [
    "PC.Dc.dataclass_args_sound_partial",
    "PC.Dc.dataclass_args_complete_partial",
    "PC.Dc.dataclass_args_errors_partial",
    "PC.Dc.dataclass_args_raises_partial",
    "PC.Dc.init_false_shifts",
    "PC.Dc.init_false_loses_argument",
    "PC.Dc.init_false_overwritten",
    "PC.Dc.aliased_overwritten",
    "PC.Dc.omit_ends_validation"
   ],
   "note": "All calls, for dataclasses whose fields are in pydantic's order without aliases and whose positional fields all take an argument. Where a positional field has init=False it is false (init_false_shifts, init_false_loses_argument); extra arguments may overwrite fields (init_false_overwritten, aliased_overwritten); an omitting validator ends validation (omit_ends_validation)."
  },
  {
   "property": "C71",
   "status": "partial",
   "theorems": [
    "PC.Dc.dataclass_assign_rejected_keeps",
    "PC.Dc.dataclass_assign_frozen",
    "PC.Dc.dataclass_assign_accepted_partial",
    "PC.Dc.dataclass_assign_valid_partial",
    "PC.Dc.assign_loses_extra",
    "PC.Dc.assign_needs_all_fields",
    "PC.Dc.assign_extra_not_validated"
   ],
   "note": "Failure and frozen: all instances. Success: instances without attributes besides the fields (else false: assign_loses_extra); valid values are accepted if all fields are set (else false: assign_needs_all_fields)."
  },
  {
   "property": "C72",
   "status": "partial",
   "theorems": [
    "PC.Dc.dataclass_instance_kept",
    "PC.Dc.dataclass_strict",
    "PC.Dc.dataclass_init",
    "PC.Dc.dataclass_init_rejected_keeps",
    "PC.Dc.dataclass_init_failed_keeps_partial",
    "PC.Dc.dataclass_new",
    "PC.Dc.dataclass_revalidate_partial",
    "PC.Dc.init_half_done",
    "PC.Dc.revalidate_init_only",
    "PC.Dc.revalidate_init_false",
    "PC.Dc.revalidate_resets",
    "PC.Dc.revalidate_loses_extra"
   ],
   "note": "Kept instances, strict mode, construction: all. A failing __init__ keeps the instance unless slots or __post_init__ fail later (init_half_done). Revalidation gives the same fields if all fields are init and not init-only and there is no __post_init__; otherwise it is false (revalidate_init_only, revalidate_init_false, revalidate_resets)."
  },
  {
   "property": "C73",
   "status": "partial",
   "theorems": [
    "PC.Cls.model_instance_kept",
    "PC.Cls.model_instance_kept_state",
    "PC.Cls.model_new",
    "PC.Cls.model_revalidated",
    "PC.Cls.model_root",
    "PC.Cls.model_custom_init",
    "PC.Cls.model_init_rejected_keeps",
    "PC.Cls.model_init_as_new",
    "PC.Cls.InstanceDemo.revalidate_alias",
    "PC.Cls.InstanceDemo.revalidate_root_fields_set",
    "PC.Cls.InstanceDemo.init_post_init_failed",
    "PC.Cls.InstanceDemo.revalidate_post_init"
   ],
   "note": "False in part: revalidation rejects instances with an aliased field (the attributes are looked up by alias), a root model's set of fields is not kept, post_init runs again, and an __init__ whose post_init fails leaves the new attributes behind (the four witnesses). The other theorems are as stated."
  },
  {
   "property": "C74",
   "status": "partial",
   "theorems": [
    "PC.Infer.json_ways_agree_partial",
    "PC.Infer.json_mode_is_jsonable_partial",
    "PC.Infer.json_ways_differ_on_filtered_sets",
    "PC.Infer.json_ways_differ_on_infinity",
    "PC.Infer.json_ways_differ_on_float_fields",
    "PC.Infer.json_ways_differ_on_bytes_patterns",
    "PC.Infer.json_ways_differ_on_unknown_cycles",
    "PC.Infer.json_ways_differ_on_decimals",
    "PC.Infer.json_ways_differ_on_typed_dicts"
   ],
   "note": "Proved for all schemas modelled and all object graphs, under the conditions in Spec/SerEngine.lean, each of which is needed (the witnesses json_ways_differ_*). Unions, wrap functions and computed fields are not in these schemas (see C40-C42, C84); json-or-python only if both schemas are the same (json_ways_differ_on_json_or_python)."
  },
  {
   "property": "C75",
   "status": "proved",
   "theorems": [
    "PC.Infer.serialisation_ends"
   ],
   "note": "Calls of json_key take no guard and are bounded by the stack only (finding 57): modelled as the error overflow."
  },
  {
   "property": "C76",
   "status": "proved",
   "theorems": [
    "PC.Infer.plain_data_to_json",
    "PC.Infer.plain_data_to_python"
   ],
   "note": ""
  },
  {
   "property": "C77",
   "status": "proved",
   "theorems": [
    "PC.Infer.cyclic_data_not_written",
    "PC.Infer.cyclic_data_not_jsonable"
   ],
   "note": "By inference, without include and exclude (which may cut the cycle)."
  },
  {
   "property": "C78",
   "status": "partial",
   "theorems": [
    "PC.Infer.as_any_fails_on_inferred_models"
   ],
   "note": "False: for every model met by inference to_json raises the error for circular references, and to_python returns it unserialised."
  },
  {
   "property": "C79",
   "status": "proved",
   "theorems": [
    "PC.Infer.to_json_exact",
    "PC.Infer.to_python_json_exact_partial",
    "PC.Infer.written_document_unique"
   ],
   "note": "Schemas as in C74, without include and exclude (see C40, C41 for these). to_json: all conforming values. to_python(mode='json') through C74, under its conditions."
  },
  {
   "property": "C80",
   "status": "partial",
   "theorems": [
    "PC.Trip.document_comes_back_partial",
    "PC.Trip.value_comes_back_partial",
    "PC.Trip.Sample.aliased_field_does_not_come_back",
    "PC.Trip.Sample.excluded_none_comes_back_as_default",
    "PC.Trip.Sample.root_model_of_none_comes_back_as_none",
    "PC.Trip.Sample.infinity_does_not_come_back"
   ],
   "note": "For all values of the schemas named. That each scalar comes back is a hypothesis (LeafTrips), as is how JSON data looks to validators and objects to serialisers (Reads, Sees). Tuples with and without a variadic item are covered. Not covered: sets, unions, dataclasses, functions, excluded fields, typed dicts with extra items, alias paths. Without the conditions the claim is false: four witnesses."
  },
  {
   "property": "C81",
   "status": "partial",
   "theorems": [
    "PC.Decimal.digits_exact_partial",
    "PC.Decimal.digits_error_partial",
    "PC.Decimal.zero_digits",
    "PC.Decimal.accepted_exact_partial",
    "PC.Decimal.multiple_accepted",
    "PC.Decimal.accepted_near_multiple",
    "PC.Decimal.not_finite",
    "PC.Decimal.long_decimal_accepted",
    "PC.Decimal.zero_refused",
    "PC.Decimal.half_is_multiple_of_one",
    "PC.Decimal.large_multiple_raises"
   ],
   "note": "Exact for decimals other than zero that the context (28 digits by default) holds without rounding, as it must the quotient by multiple_of. Beyond that false: a decimal of 30 digits passes max_digits=5, 1000000000000000000000000000.5 passes multiple_of=1, 1E+28 with multiple_of=1 raises InvalidOperation; Decimal('0') is refused for max_digits=decimal_places (witnesses). The methods of decimal.Decimal are modelled after its documentation."
  },
  {
   "property": "C82",
   "status": "partial",
   "theorems": [
    "PC.JsonText.text_exact",
    "PC.JsonText.reads_back_partial",
    "PC.JsonText.reads_back_extended",
    "PC.JsonText.same_text_same_document",
    "PC.JsonText.indentation_keeps_document",
    "PC.JsonText.announcement_does_not_show",
    "PC.JsonText.compact_is_one_line",
    "PC.JsonText.nan_is_not_json",
    "PC.JsonText.wrong_length_breaks_text",
    "PC.JsonText.not_all_read_back",
    "PC.JsonText.value_comes_back_through_text_partial",
    "PC.JsonText.denotes_unique"
   ],
   "note": "For documents without NaN and infinities, whose collections are not announced as empty when they are not. NaN is written as NaN (reads_back_extended covers it); an iterator whose __len__ is 0 gives broken text (witnesses). That ryu's decimal form of a double is read back as the double is a hypothesis (Shortest, shown satisfiable). The formatters of serde_json are modelled as assumed. value_comes_back_through_text_partial is the round trip C80 through text."
  },
  {
   "property": "C83",
   "status": "partial",
   "theorems": [
    "PC.Report.errors_exact",
    "PC.Report.errors_succeed_iff",
    "PC.Report.errors_can_fail",
    "PC.Report.flags_only_remove",
    "PC.Report.context_of_known",
    "PC.Report.context_of_custom_partial",
    "PC.Report.custom_context_entries_lost",
    "PC.Report.json_mirrors_errors_partial",
    "PC.Report.json_has_url_of_custom",
    "PC.Report.json_text",
    "PC.Report.str_exact",
    "PC.Report.location_shown",
    "PC.Report.title_must_be_text",
    "PC.Report.counts_agree",
    "PC.Report.hidden_input_does_not_show",
    "PC.Report.hide_input_only_in_str",
    "PC.Report.pickling_keeps_reports_partial",
    "PC.Report.custom_not_picklable",
    "PC.Report.custom_becomes_known",
    "PC.Report.big_limit_changes",
    "PC.Report.big_limit_not_picklable"
   ],
   "note": "Pickling for known errors without limits beyond 64 bits; custom errors cannot be unpickled, or become the known error of the same name (witnesses). json() adds a URL to custom errors that errors() has not, and hide_input has no effect on errors() and json() (witnesses). repr, str, the names of classes, inference of inputs and contexts to JSON and the conversion of integers to doubles are parameters; texts of exceptions are shortened; that pickle copies objects faithfully is assumed."
  },
  {
   "property": "C84",
   "status": "partial",
   "theorems": [
    "PC.SerFunction.when_used_names",
    "PC.SerFunction.unused_not_consulted",
    "PC.SerFunction.unused_as_without_partial",
    "PC.SerFunction.unused_filters_lost",
    "PC.SerFunction.plain_used_exact",
    "PC.SerFunction.arguments_exist_iff",
    "PC.SerFunction.no_context_reported",
    "PC.SerFunction.plain_hides_partial",
    "PC.SerFunction.wrap_hides_partial",
    "PC.SerFunction.unexpected_leaks",
    "PC.SerFunction.exception_reported",
    "PC.SerFunction.unexpected_warns",
    "PC.SerFunction.to_json_errors",
    "PC.SerFunction.to_string_error_escapes",
    "PC.SerFunction.handler_excludes",
    "PC.SerFunction.handler_is_schema",
    "PC.SerFunction.handler_negative_index",
    "PC.SerFunction.transparent_wrap",
    "PC.SerFunction.wrap_keeps_state",
    "PC.SerFunction.handler_error_swallowed",
    "PC.SerFunction.transparent_error_mode",
    "PC.SerFunction.earlier_warning_issued_again",
    "PC.SerFunction.earlier_warning_raises",
    "PC.SerFunction.json_agrees_with_python",
    "PC.SerFunction.json_may_fail_alone",
    "PC.SerFunction.to_string_keys_collide",
    "PC.SerFunction.no_panic",
    "PC.SerFunction.panic_without_fallback",
    "PC.SerFunction.format_python_identity",
    "PC.SerFunction.format_json_exact",
    "PC.SerFunction.empty_format",
    "PC.SerFunction.validators_ignored",
    "PC.SerFunction.retry_exact",
    "PC.Infer.function_result_serialised",
    "PC.Infer.unused_function_transparent_partial",
    "PC.Infer.unused_function_loses_exclude",
    "PC.Infer.function_unexpected_value",
    "PC.Infer.function_error_raised",
    "PC.Infer.field_function_needs_model"
   ],
   "note": "A function that is not used makes the filters of the call be dropped, so that excluded fields are written; one that raises PydanticSerializationUnexpectedValue gives its value away; the handler shows the warnings of earlier fields again (witnesses). The serialisers that functions are combined with, inference, str, format and the texts of exceptions are parameters; a handler called after its function has returned is not modelled."
  },
  {
   "property": "C85",
   "status": "partial",
   "theorems": [
    "PC.ArgsV3.build_iff",
    "PC.ArgsV3.build_refuses_star_after_default",
    "PC.ArgsV3.mapping_sound_partial",
    "PC.ArgsV3.mapping_complete_partial",
    "PC.ArgsV3.mapping_errors_only_partial",
    "PC.ArgsV3.argskwargs_as_arguments_partial",
    "PC.ArgsV3.argskwargs_sound_partial",
    "PC.ArgsV3.forms_agree_partial",
    "PC.ArgsV3.mapping_clash_overwrites",
    "PC.ArgsV3.mapping_clash_twice",
    "PC.ArgsV3.mapping_generator_panics",
    "PC.ArgsV3.field_name_not_set"
   ],
   "note": "For parameters without aliases and validators that say why they reject; entries of **kwargs in a mapping must not have names of parameters, and the ArgsKwargs form is compared for uniform **kwargs and extra='forbid'. Without these the property fails (witnesses); def f(a=1, *args) cannot be built; a generator that raises panics; field_name is not set. How inputs are read as mappings, tuples and dicts is a parameter."
  },
  {
   "property": "C86",
   "status": "partial",
   "theorems": [
    "PC.Uuid.build_iff",
    "PC.Uuid.instance_iff",
    "PC.Uuid.plain_iff",
    "PC.Uuid.spells_unique",
    "PC.Uuid.output_version",
    "PC.Uuid.print_canonical",
    "PC.Uuid.print_total",
    "PC.Uuid.print_injective",
    "PC.Uuid.text_agrees",
    "PC.Uuid.sixteen_bytes",
    "PC.Uuid.state_after",
    "PC.Uuid.one_error",
    "PC.Uuid.roundtrip_safety_witness"
   ],
   "note": "Uuid::parse_str and UTF-8 decoding are parameters (parser: reads back the canonical text, 128 bits, at least 32 characters). instance_iff and text_agrees need the `version` property of the standard library. `is_safe` is not read back: always `safe` (witness), and other versions than 1 and 3 to 8 in a schema panic. The message of a parsing error is not modelled."
  },
  {
   "property": "C87",
   "status": "partial",
   "theorems": [
    "PC.Complex.accepted_iff",
    "PC.Complex.state_after",
    "PC.Complex.panics_iff",
    "PC.Complex.call_strict_ignored",
    "PC.Complex.strict_call_coerces_witness",
    "PC.Complex.roundtrip_iff",
    "PC.Complex.unreadable_iff",
    "PC.Complex.text_injective",
    "PC.Complex.unreadable_witnesses"
   ],
   "note": "The round trip is characterised exactly; it fails for a real part with an imaginary part NaN or -0.0 and loses the sign of a real part of -0.0. strtod and the decimal text of a magnitude are parameters. The model of complex() leaves out white space, parentheses and underscores, which are never written."
  },
  {
   "property": "C88",
   "status": "partial",
   "theorems": [
    "PC.JsonSchema.python_is_validate_json",
    "PC.JsonSchema.accepted_iff",
    "PC.JsonSchema.refused_why",
    "PC.JsonSchema.python_not_text",
    "PC.JsonSchema.extra_restored",
    "PC.JsonSchema.any_is_no_schema",
    "PC.JsonSchema.build_uses_schema",
    "PC.JsonSchema.nested_reads_back",
    "PC.JsonSchema.nested_reads_back_python",
    "PC.JsonSchema.without_round_trip",
    "PC.JsonSchema.json_witnesses"
   ],
   "note": "Parsers and writers are parameters (what is written is parsed back); Json[Any] equals Json without schema if jiter's two parsers agree. A key without round_trip is written by inference instead of the inner schema, and to_python(round_trip=True) writes its JSON text in Python mode (witnesses). The description in json_invalid is that of the parser. The equivalence is for equal options; validate_json takes no from_attributes, which no JSON input looks at."
  },
  {
   "property": "C89",
   "status": "partial",
   "theorems": [
    "PC.StringMode.dict_for_scalar_refused",
    "PC.StringMode.unreadable_date",
    "PC.StringMode.python_list_exact",
    "PC.StringMode.strings_as_lax_python",
    "PC.StringMode.strict_ignored_without_dates",
    "PC.StringMode.strict_accepts_less",
    "PC.StringMode.strict_matters_for_dates",
    "PC.StringMode.accepted_is_textual",
    "PC.StringMode.lists_and_none_refused",
    "PC.StringMode.other_input_refused",
    "PC.StringMode.unreadable_field_is_located",
    "PC.StringMode.unreadable_item_hides_everything",
    "PC.StringMode.unreadable_extra_hides_everything"
   ],
   "note": "Text readers (shared by both modes), mappings other than dicts, aliases and length constraints are not modelled; unions are left out (their choice depends on the exactness, which differs). The last clause is false in the code: inside a dict schema, or a model that forbids or keeps extra keys, the first value that is no text is reported without location and hides all other errors (proved)."
  },
  {
   "property": "C90",
   "status": "partial",
   "theorems": [
    "PC.Infer.text_same_everywhere",
    "PC.Infer.duration_same_everywhere",
    "PC.Infer.enum_written_as_value",
    "PC.Infer.wrong_type_warned",
    "PC.Infer.duration_never_warned_in_python_mode",
    "PC.Infer.none_never_warned",
    "PC.Infer.wrong_type_refused_in_union",
    "PC.Infer.literal_never_warned",
    "PC.Infer.literal_in_union",
    "PC.Infer.json_or_python_by_function",
    "PC.Infer.dataclass_written_as_fields",
    "PC.Infer.json_ways_differ_on_json_or_python"
   ],
   "note": "False in the code, with proof: a duration field never warns in mode 'python'; json-or-python uses the Python schema in to_python even with mode='json'. The texts of dates and durations are parameters."
  },
  {
   "property": "C91",
   "status": "partial",
   "theorems": [
    "PC.Infer.empty_chain_panics",
    "PC.Infer.build_panics_only_for_empty_chain_partial",
    "PC.Infer.chain_serialised_as_last",
    "PC.Infer.validation_schemas_serialised_as_inner"
   ],
   "note": "The last clause is false in the code: a chain without steps panics. Proved that nothing else here does."
  },
  {
   "property": "C92",
   "status": "proved",
   "theorems": [
    "PC.CallClass.called_iff_arguments_valid",
    "PC.CallClass.call_succeeds_iff",
    "PC.CallClass.call_fails_as",
    "PC.CallClass.is_instance_exact",
    "PC.CallClass.is_subclass_exact",
    "PC.CallClass.callable_exact"
   ],
   "note": ""
  },
  {
   "property": "C93",
   "status": "partial",
   "theorems": [
    "PC.Prebuilt.reused_only_if",
    "PC.Prebuilt.reuse_is_transparent_partial",
    "PC.Prebuilt.before_function_called_twice",
    "PC.Prebuilt.other_schema_ignored",
    "PC.PrebuiltSer.serializer_reused_only_if",
    "PC.PrebuiltSer.serializer_reuse_transparent_partial",
    "PC.PrebuiltSer.plain_function_lawful",
    "PC.PrebuiltSer.replaced_function_called",
    "PC.PrebuiltSer.wrapped_function_called"
   ],
   "note": "The last clause is false in the code (witnesses): for validators it is proved for programs that use each class with its own schema or with one whose outermost part is an after or wrap function; for serialisers, for programs that use each class with its own schema and within the function it is serialised by, or as they like if that is a wrap function."
  },
  {
   "property": "C94",
   "status": "partial",
   "theorems": [
    "PC.BytesVal.bytes_accepted_exact_partial",
    "PC.BytesVal.bytes_limit_errors",
    "PC.BytesVal.limits_count_bytes",
    "PC.BytesVal.bytes_revalidate",
    "PC.BytesVal.length_of_subclass_trusted"
   ],
   "note": "False in the code for instances of subclasses of bytes whose __len__ does not give the number of their bytes (witness); proved for all other inputs."
  },
  {
   "property": "C95",
   "status": "partial",
   "theorems": [
    "PC.ObType.own_class_first",
    "PC.ObType.marks_come_next",
    "PC.ObType.nearest_base",
    "PC.ObType.isinstance_last",
    "PC.ObType.unknown_iff",
    "PC.ObType.type_is_sound",
    "PC.ObType.class_is_not_instance",
    "PC.ObType.is_type_exact",
    "PC.ObType.is_type_sound",
    "PC.ObType.inferred_is_expected",
    "PC.ObType.expected_is_inferred",
    "PC.ObType.type_equality",
    "PC.ObType.float_takes_integers",
    "PC.ObType.pattern_is_path",
    "PC.ObType.readings_part",
    "PC.ObType.derived_metaclass_is_no_enum",
    "PC.Infer.unknown_object",
    "PC.Infer.unknown_fallback"
   ],
   "note": "The order of the lookup, soundness and the agreement of the two readings are proved for every object. Serialisers of float take integers for floats, an enum whose metaclass is derived is not told as an enum, and objects with marks are read differently by inference and by the serialiser of their base (witnesses)."
  },
  {
   "property": "C96",
   "status": "partial",
   "theorems": [
    "PC.Info.model_told_only",
    "PC.Info.dict_told_only",
    "PC.Info.dataclass_told_only",
    "PC.Info.model_field_told",
    "PC.Info.dict_field_told",
    "PC.Info.assignment_told",
    "PC.Info.plain_function_told",
    "PC.Info.after_function_told",
    "PC.Info.before_function_told",
    "PC.Info.wrap_function_told",
    "PC.Info.schema_name_outside",
    "PC.Info.handler_forgets_name",
    "PC.Info.default_told_outer_name",
    "PC.Info.extra_told_outer"
   ],
   "note": "Proved for models, typed dicts and dataclasses and all kinds of functions. Defaults of models and typed dicts and the validators of extra items are told the name of the field around the model instead (witnesses). A function that changes info.data, which is the dict being built, is not modelled."
  },
  {
   "property": "C97",
   "status": "partial",
   "theorems": [
    "PC.AssignFn.no_functions",
    "PC.AssignFn.inner_functions_atomic",
    "PC.AssignFn.frozen_asks_nothing",
    "PC.AssignFn.before_cannot_change_value",
    "PC.AssignFn.after_result_used",
    "PC.AssignFn.outer_functions_atomic_partial",
    "PC.AssignFn.after_failure_keeps",
    "PC.AssignFn.assignment_not_atomic",
    "PC.AssignFn.outer_functions_reach",
    "PC.AssignFn.straight_success",
    "PC.AssignFn.wrap_passes_on",
    "PC.AssignFn.outer_functions_touch_one",
    "PC.AssignFn.dataclass_functions_atomic_partial",
    "PC.AssignFn.before_bypasses_validation",
    "PC.AssignFn.told_assigned_name",
    "PC.AssignFn.told_assigned_name_inner",
    "PC.AssignFn.entry_told"
   ],
   "note": "Atomicity fails when a function around the class raises after it has accepted the value (assignment_not_atomic); proved for functions that do not. Functions that change objects themselves are not modelled."
  },
  {
   "property": "C98",
   "status": "partial",
   "theorems": [
    "PC.Count.model_count",
    "PC.Count.dict_count",
    "PC.Count.dataclass_count",
    "PC.Count.smart_union_most_fields",
    "PC.Count.noinit_default_counted",
    "PC.Count.failed_member_counted"
   ],
   "note": "Fields that take no part in __init__ count as set when they have a default (noinit_default_counted); the fields of a typed dict or dataclass that was tried and failed in a left-to-right union are counted (failed_member_counted). Not covered: validators that omit a field, typed dicts in partial mode."
  },
  {
   "property": "C99",
   "status": "partial",
   "theorems": [
    "PC.Dflt.default_isolated_partial",
    "PC.Dflt.instance_default_shared"
   ],
   "note": "Fails for instances of ordinary classes, which can be hashed though they are mutable: they are shared (instance_default_shared). copy.deepcopy is assumed to make new mutable objects that look like the old ones."
  }
 ]
}