{"id": "C01", "title": "Smart union returns the best match", "statement": "When a union in smart mode accepts an input, the value returned is one a member produced by itself, and no other accepting member is a better match: more fields set wins, then higher exactness (exact over strict over lax), then the earlier member. If at least one member accepts (and none raises a non-validation error), the union accepts.", "quantifier": "every list of union members (arbitrary validators), every input and every validation state", "why_tests_cant": "The selection rule is a fold over an arbitrary number of members with two partially comparable metrics; tests cover a few orders of a few members.", "anchors": ["src/validators/union.rs::UnionValidator::validate_smart", "src/validators/validation_state.rs::floor_exactness"]}
{"id": "C02", "title": "Left-to-right union returns the first success", "statement": "A union in left_to_right mode returns exactly what the first accepting member returns; members after it are never run, and every member before it had rejected the input with validation errors.", "quantifier": "every list of members, input and state", "why_tests_cant": "Needs quantification over all members and all their behaviours, including those that raise.", "anchors": ["src/validators/union.rs::UnionValidator::validate_left_to_right"]}
{"id": "C03", "title": "A failed union reports every member's errors", "statement": "If no member accepts, the errors reported are the errors of every member, in member order, each with the member's label (or name) prepended to its location and otherwise unchanged; with a custom error configured exactly that one error is reported instead.", "quantifier": "every list of members, labels, inputs", "why_tests_cant": "Completeness of error reporting is a statement about all inputs and members.", "anchors": ["src/validators/union.rs::MaybeErrors", "src/validators/union.rs::UnionValidator"]}
{"id": "C04", "title": "Tagged union dispatches on the tag only", "statement": "A tagged union runs exactly the validator registered for the input's tag, returns its value unchanged, and prefixes its errors with the tag; an absent tag gives only union_tag_not_found, an unregistered tag only union_tag_invalid; no other member can influence the result.", "quantifier": "every table of members, every input, every discriminator", "why_tests_cant": "Independence from the other members is a non-interference property over all member tables.", "anchors": ["src/validators/union.rs::TaggedUnionValidator::validate", "src/validators/union.rs::TaggedUnionValidator::find_call_validator"]}
{"id": "C05", "title": "Recursion tracking is restored after every validation", "statement": "After validating any value against a (possibly recursive) schema, whether it was accepted or rejected, the recursion tracking is what it was before, so validating one item can never make a later, unrelated item be reported as a cycle.", "quantifier": "every schema, every object graph, every nesting depth, every success/failure outcome", "why_tests_cant": "The leak, if any, appears only at particular depths and histories; it is an invariant over all executions.", "anchors": ["src/recursion_guard.rs::RecursionGuard::new", "src/recursion_guard.rs::RecursionGuard::drop", "src/validators/definitions.rs::DefinitionRefValidator"]}
{"id": "C06", "title": "Cycle detection is exact", "statement": "While validating, a definition re-entered for the same object inside itself is reported as recursion_loop and a definition entered for an object that is not currently being validated by it is never reported as cyclic, regardless of how many entries are open (small-array and hash-set storage behave the same).", "quantifier": "every sequence of nested enter/leave operations of any length", "why_tests_cant": "The storage changes representation at the 17th nested entry; equivalence must hold for all histories.", "anchors": ["src/recursion_guard.rs::RecursionStack::insert", "src/recursion_guard.rs::RecursionStack::remove", "src/recursion_guard.rs::RecursionState"]}
{"id": "C07", "title": "Validation of cyclic data terminates", "statement": "Validating any finite object graph, cyclic or not, with any schema whose recursion goes through definition references terminates, with the result or a recursion_loop error; nesting of definition entries never exceeds the recursion limit.", "quantifier": "every finite object graph and every set of definitions", "why_tests_cant": "Termination for all graphs cannot be tested.", "anchors": ["src/recursion_guard.rs::RECURSION_GUARD_LIMIT", "src/validators/definitions.rs::DefinitionRefValidator::validate"]}
{"id": "C08", "title": "Alias lookup takes the first alias that resolves", "statement": "Looking a field up by its aliases returns the value at the first alias path, in declared order, that resolves in the input, and reports the field missing only if no alias path resolves; the name is used only when name lookup is enabled.", "quantifier": "every list of alias paths, every nested input", "why_tests_cant": "Quantifies over arbitrary nested inputs and alias paths of any length.", "anchors": ["src/lookup_key.rs::LookupKey", "src/lookup_key.rs::LookupKeyCollection", "src/lookup_key.rs::LookupPath"]}
{"id": "C09", "title": "Python and JSON lookups agree", "statement": "For data that has both a JSON and a Python form, looking up any alias in the JSON form finds exactly the value found in the equivalent Python form, including duplicate JSON keys (last one wins), negative list indices and wrong-typed intermediate containers.", "quantifier": "every JSON document and every alias path", "why_tests_cant": "Two separately written traversals must agree on all documents.", "anchors": ["src/lookup_key.rs::LookupKey::py_get_dict_item", "src/lookup_key.rs::LookupKey::json_get", "src/lookup_key.rs::PathItem"]}
{"id": "C10", "title": "Model output has exactly the declared fields", "statement": "When a model/typed-dict validation accepts, every required field is present with the validated value of what the input held for it, every absent optional field has its default (or is absent when it has none), and no undeclared key appears unless extras are allowed.", "quantifier": "every field list, every input mapping, every inner validator", "why_tests_cant": "Quantifies over all schemas and inputs.", "anchors": ["src/validators/model_fields.rs::ModelFieldsValidator::validate", "src/validators/typed_dict.rs::TypedDictValidator::validate"]}
{"id": "C11", "title": "fields_set is exactly what the input supplied", "statement": "The fields-set returned with a model contains exactly the declared fields for which the input supplied a value, plus, when extras are allowed, exactly the extra keys; a field filled from a default is never in it.", "quantifier": "every field list and input mapping", "why_tests_cant": "Quantifies over all schemas and inputs.", "anchors": ["src/validators/model_fields.rs::ModelFieldsValidator::validate"]}
{"id": "C12", "title": "No model error is lost or invented", "statement": "A model validation rejects iff some supplied field value is rejected, some required field is missing, or a forbidden extra key is present; it reports the errors of all of them, fields first in declared order and then extras in input order, each at a location starting with the field's (or matched alias') name.", "quantifier": "every field list, input mapping and inner validator", "why_tests_cant": "Completeness over all combinations of errors.", "anchors": ["src/validators/model_fields.rs::ModelFieldsValidator::validate", "src/lookup_key.rs::LookupPath::apply_error_loc"]}
{"id": "C13", "title": "Extra keys are handled by the configured policy only", "statement": "With extra=ignore unknown keys have no effect on the result; with extra=forbid validation rejects iff there is an unknown key (other things being valid), with one extra_forbidden error per unknown key; with extra=allow every unknown key is kept with its (validated) value.", "quantifier": "every set of fields and every mapping", "why_tests_cant": "Quantifies over all key sets; ignore is a non-interference property.", "anchors": ["src/validators/model_fields.rs", "src/validators/typed_dict.rs", "src/validators/dataclass.rs::DataclassArgsValidator"]}
{"id": "C14", "title": "An extra key never replaces a validated field", "statement": "With extra=allow, the output value of a declared field is always the one produced by the field's validator; an unknown key in the input cannot overwrite it.", "quantifier": "every field list with any aliases and every input", "why_tests_cant": "Fails only for particular alias/key combinations.", "anchors": ["src/validators/typed_dict.rs::TypedDictValidator::validate", "src/validators/dataclass.rs::DataclassArgsValidator::validate"]}
{"id": "C15", "title": "Assignment is atomic and touches one field", "statement": "validate_assignment(model, field, value) either fails leaving the model exactly as it was, or changes only that field (to the validated value) and adds only that field to fields_set; frozen fields and frozen models always reject; other data of the instance, including extras, is preserved.", "quantifier": "every model state, field and value", "why_tests_cant": "Must hold for every model state including failing inner validators.", "anchors": ["src/validators/model.rs::ModelValidator::validate_assignment", "src/validators/model_fields.rs::ModelFieldsValidator::validate_assignment", "src/validators/dataclass.rs::DataclassValidator::validate_assignment"]}
{"id": "C16", "title": "List validation is element-wise and order preserving", "statement": "A list validates iff every item validates and the length bounds hold; the output is the item outputs in input order (minus items that asked to be omitted); on failure the errors are those of every failing item in order, each prefixed with the item's index.", "quantifier": "every list of any length, every item validator, any bounds", "why_tests_cant": "Induction over list length.", "anchors": ["src/input/return_enums.rs::validate_iter_to_vec", "src/validators/list.rs::ListValidator::validate"]}
{"id": "C17", "title": "Length bounds are exact", "statement": "min_length and max_length on collections accept a collection iff its validated length is within the closed interval; no more than max_length+1 items of an iterator are consumed before rejecting.", "quantifier": "all lengths and bounds", "why_tests_cant": "Boundary conditions over all n.", "anchors": ["src/input/return_enums.rs::MaxLengthCheck", "src/input/return_enums.rs::min_length_check", "src/validators/list.rs", "src/validators/set.rs", "src/validators/dict.rs"]}
{"id": "C18", "title": "fail_fast does not change the verdict", "statement": "With fail_fast a collection is accepted iff it is accepted without it, with the same value; when rejected exactly the errors of the first failing item are reported.", "quantifier": "every list and item validator", "why_tests_cant": "Relational property between two configurations on all inputs.", "anchors": ["src/input/return_enums.rs::validate_iter_to_vec"]}
{"id": "C19", "title": "Partial validation forgives only the last element", "statement": "With allow_partial, a list or dict whose elements except the last all validate is accepted, dropping the last if it fails; an error in any other element is still reported; complete valid data gives the same result as without allow_partial.", "quantifier": "every list/dict, every item validator", "why_tests_cant": "Relational property over all inputs.", "anchors": ["src/validators/validation_state.rs::EnumerateLastPartial", "src/input/return_enums.rs::validate_iter_to_vec", "src/validators/dict.rs"]}
{"id": "C20", "title": "Dict validation is entry-wise", "statement": "A dict validates iff every key and every value validate and the length bounds hold; the errors of a bad key are at location (key,'[key]') and of a bad value at (key,), all reported in input order; later entries win when validated keys coincide.", "quantifier": "every mapping, key validator and value validator", "why_tests_cant": "Induction over all mappings.", "anchors": ["src/validators/dict.rs::ValidateToDict"]}
{"id": "C21", "title": "Set validation is by validated value", "statement": "A set validates iff every item validates (and is hashable) and the number of distinct validated items is within bounds; the output is the set of validated items.", "quantifier": "every iterable and item validator", "why_tests_cant": "Induction over all iterables with duplicates.", "anchors": ["src/input/return_enums.rs::validate_iter_to_set"]}
{"id": "C22", "title": "Tuple items are validated by their own schema", "statement": "For a tuple schema with items before, an optional variadic item and items after it, an accepted input has each leading, middle and trailing element validated by the corresponding schema, in order; too few elements give one missing error per missing position and too many a too_long error; errors carry the element's own index.", "quantifier": "every tuple schema and every input length", "why_tests_cant": "Index arithmetic over all lengths and variadic positions.", "anchors": ["src/validators/tuple.rs::TupleValidator::validate_tuple_items", "src/validators/tuple.rs::TupleValidator::validate_tuple_variable"]}
{"id": "C23", "title": "Integer constraints are exact for all sizes", "statement": "int with gt/ge/lt/le/multiple_of accepts exactly the integers that satisfy all of them mathematically, for machine-size and arbitrarily large integers alike, and returns the integer unchanged.", "quantifier": "all integers and all constraint combinations", "why_tests_cant": "The 64-bit/bignum split and signed remainder have boundary cases at every size.", "anchors": ["src/validators/int.rs::ConstrainedIntValidator", "src/input/return_enums.rs::Int"]}
{"id": "C24", "title": "String to integer parsing agrees with Python's int()", "statement": "A str is accepted as an int iff Python's int() would accept it as a base-10 literal (optionally with a zero fractional part) and the value is the same.", "quantifier": "every string", "why_tests_cant": "Infinite input space; malformed underscore/sign/leading zero combinations.", "anchors": ["src/input/shared.rs::str_as_int", "src/input/shared.rs::clean_int_str", "src/input/shared.rs::strip_leading_zeros", "src/input/shared.rs::strip_underscores", "src/input/shared.rs::strip_decimal_zeros"]}
{"id": "C25", "title": "Float to integer conversion is exact", "statement": "A float is accepted as an int iff it is finite, in range and integral, and the resulting int equals it.", "quantifier": "every double", "why_tests_cant": "2^64 inputs.", "anchors": ["src/input/shared.rs::float_as_int"]}
{"id": "C26", "title": "String constraints hold of the returned string", "statement": "An accepted constrained str satisfies its own min_length and max_length (in characters), and equals the input after strip, then case mapping.", "quantifier": "every string and configuration", "why_tests_cant": "Case mapping can change length for particular characters.", "anchors": ["src/validators/string.rs::StrConstrainedValidator"]}
{"id": "C27", "title": "Defaults are used exactly when documented", "statement": "A field with a default gets the default iff the value is missing (or PydanticUndefined), or the inner validator asks for it, or it fails and on_error='default'; on_error='omit' omits it; otherwise the inner result is returned unchanged; the default is validated iff validate_default.", "quantifier": "every inner validator, default and input", "why_tests_cant": "Decision logic over all inner outcomes.", "anchors": ["src/validators/with_default.rs::WithDefaultValidator"]}
{"id": "C28", "title": "Strict acceptance implies lax acceptance", "statement": "Any input accepted in strict mode is accepted in lax mode with the same value, for scalars and for containers of such.", "quantifier": "every value of the scalar input types and nested containers", "why_tests_cant": "Quantifies over all values; separately coded strict/lax branches.", "anchors": ["src/input/input_python.rs", "src/input/input_json.rs", "src/input/input_string.rs"]}
{"id": "C29", "title": "Literal accepts exactly its members", "statement": "literal accepts an input iff it equals an expected member (bool and int kept apart), and returns that member.", "quantifier": "every expected list and every input", "why_tests_cant": "Lookup is split across four tables; cross-table interference is combinatorial.", "anchors": ["src/validators/literal.rs::LiteralLookup"]}
{"id": "C30", "title": "Every definition reference resolves", "statement": "Schema construction with definitions succeeds only if every reference used has exactly one definition; after success no reference can be found unfilled during validation; a duplicate or missing definition is a schema error.", "quantifier": "every sequence of definition and reference occurrences, in any order", "why_tests_cant": "Invariant over all build histories.", "anchors": ["src/definitions.rs::DefinitionsBuilder"]}
{"id": "C31", "title": "Error locations read outermost first", "statement": "The location of an error lists the keys/indices from the outermost container to the failing value, whatever the nesting depth; converting a location to Python and back gives the same location.", "quantifier": "every nesting depth and location", "why_tests_cant": "Induction over depth.", "anchors": ["src/errors/location.rs::Location", "src/errors/line_error.rs::ValLineError::with_outer_location"]}
{"id": "C32", "title": "timedelta conversion round-trips", "statement": "Converting any Python timedelta to the internal duration and back yields the same timedelta, for positive and negative ones; integer seconds become exactly that many seconds or are rejected.", "quantifier": "all timedeltas (days, seconds, microseconds); all integers", "why_tests_cant": "Sign normalisation and 32/64-bit casts have boundary cases.", "anchors": ["src/input/datetime.rs::pytimedelta_exact_as_duration", "src/input/datetime.rs::duration_as_pytimedelta", "src/input/datetime.rs::int_as_duration"]}
{"id": "C33", "title": "Float timestamps keep their fractional part", "statement": "A float unix timestamp is converted to the datetime at that many seconds (to microsecond precision), for negative timestamps as well as positive ones.", "quantifier": "all finite doubles in range", "why_tests_cant": "Negative non-half fractions are not covered by any test.", "anchors": ["src/input/datetime.rs::float_as_datetime"]}
{"id": "C34", "title": "Timezone offsets are in range and printed faithfully", "statement": "Any constructed TzInfo has an offset strictly between -24h and +24h; its string form determines the offset.", "quantifier": "all 32-bit offsets", "why_tests_cant": "Overflow at the extreme of the integer range; injectivity over all offsets.", "anchors": ["src/input/datetime.rs::TzInfo"]}
{"id": "C35", "title": "Argument binding agrees with Python calls", "statement": "For a function signature schema, (args, kwargs) is accepted iff Python could bind it to the signature and each bound argument validates; every argument ends up in the parameter Python would bind it to; unexpected, duplicate and missing arguments are each reported.", "quantifier": "every signature and every (args, kwargs)", "why_tests_cant": "Combinatorial space of positional/keyword/default/variadic parameters.", "anchors": ["src/validators/arguments.rs::ArgumentsValidator::validate"]}
{"id": "C36", "title": "Generator bounds are enforced lazily and exactly", "statement": "Iterating a validated generator yields validated items in order, raises on the first invalid item, raises once more than max_length items are produced, and raises at the end if fewer than min_length were produced.", "quantifier": "every underlying iterator, item validator and bounds", "why_tests_cant": "History property over all iterations.", "anchors": ["src/validators/generator.rs::ValidatorIterator"]}
{"id": "C37", "title": "Include/exclude select exactly the requested items", "statement": "Serialising with call-time include/exclude keeps an item iff it is not excluded and (there is no include or it is included); exclude beats include; nested selections are applied to the nested value; with neither given nothing is dropped.", "quantifier": "every container and every include/exclude specification", "why_tests_cant": "Nested specification language over all containers.", "anchors": ["src/serializers/filter.rs::SchemaFilter", "src/serializers/filter.rs::FilterLogic"]}
{"id": "C38", "title": "Index filters refer to the indexed element", "statement": "In include/exclude, a non-negative index i refers to element i only, and -k to the k-th element from the end only; an index out of range refers to no element.", "quantifier": "every list length and index", "why_tests_cant": "Modular arithmetic wraps only for out-of-range indices.", "anchors": ["src/serializers/filter.rs::map_negative_index", "src/serializers/filter.rs::map_negative_indices"]}
{"id": "C39", "title": "Excluding more never outputs more", "statement": "Adding entries to exclude (or to a schema's exclude) never makes an item appear in the output that was absent without them.", "quantifier": "every pair of exclude specifications", "why_tests_cant": "Relational monotonicity property.", "anchors": ["src/serializers/filter.rs::FilterLogic::filter", "src/serializers/filter.rs::FilterLogic::default_filter"]}
{"id": "C40", "title": "Field serialisation honours exclude_none/unset/defaults", "statement": "to_python of a model outputs exactly the fields that are not excluded by include/exclude, exclude_none, exclude_unset or exclude_defaults, under their alias when by_alias, each with its serialised value; nothing else (extras and computed fields aside).", "quantifier": "every model state and option combination", "why_tests_cant": "Decision logic over all models.", "anchors": ["src/serializers/fields.rs::GeneralFieldsSerializer::main_to_python", "src/serializers/type_serializers/model.rs::ModelSerializer::get_inner_value"]}
{"id": "C41", "title": "to_json agrees with to_python(mode='json')", "statement": "For every model, the JSON document produced by to_json has the same keys and values as to_python(mode='json') with the same options, including extras and computed fields.", "quantifier": "every model state and option combination", "why_tests_cant": "Two separately written code paths must agree everywhere.", "anchors": ["src/serializers/fields.rs::main_to_python", "src/serializers/fields.rs::main_serde_serialize", "src/serializers/computed_fields.rs"]}
{"id": "C42", "title": "Union serialisation picks the first matching member", "statement": "Serialising a union tries members in order under strict checking, then in order under lax checking, and returns the first that accepts; otherwise the value is serialised by inference and a warning is recorded (unless nested in another check); a success records no warning.", "quantifier": "every list of members and every value", "why_tests_cant": "Quantifies over all member behaviours.", "anchors": ["src/serializers/type_serializers/union.rs::union_serialize", "src/serializers/type_serializers/union.rs::tagged_union_serialize"]}
{"id": "C43", "title": "Truncated error text stays within its limit", "statement": "The input shown in an error message is either the full text or a valid UTF-8 prefix, '...' and suffix of it, never longer than the limit by more than the ellipsis allows, never splitting a character, never panicking.", "quantifier": "every string and limit", "why_tests_cant": "Multi-byte boundary positions over all strings.", "anchors": ["src/tools.rs::write_truncated_to_limited_bytes", "src/tools.rs::floor_char_boundary", "src/tools.rs::ceil_char_boundary"]}
{"id": "C44", "title": "Bytes survive a JSON round trip", "statement": "Bytes serialised to JSON in hex (or base64) mode and validated back in the same mode give the same bytes; malformed text is rejected, never panics.", "quantifier": "every byte string", "why_tests_cant": "Infinite domain.", "anchors": ["src/serializers/config.rs::BytesMode::bytes_to_string", "src/validators/config.rs::ValBytesMode::deserialize_string"]}
{"id": "C45", "title": "Python exceptions in validators map to the documented outcome", "statement": "A ValueError or AssertionError raised by a user function becomes exactly one line error at the input (or the nested errors of a ValidationError), PydanticOmit/PydanticUseDefault become omit/use-default, and any other exception propagates unchanged; never is an exception turned into success.", "quantifier": "every exception", "why_tests_cant": "Decision logic over the exception hierarchy.", "anchors": ["src/validators/function.rs::convert_err", "src/errors/line_error.rs"]}
{"id": "C46", "title": "Timezone and now constraints are exact", "statement": "tz_constraint and now_op accept exactly the documented values; bounds are inclusive or exclusive as named, and of several constraints that do not hold the first one in the order le, lt, ge, gt, now_op, tz_constraint is reported.", "quantifier": "every offset and instant", "why_tests_cant": "Boundary cases at equality.", "anchors": ["src/validators/datetime.rs::TZConstraint", "src/validators/datetime.rs::NowConstraint"]}
{"id": "C47", "title": "Multi-host URL splitting is lossless", "statement": "Parsing a multi-host URL splits the authority at its commas into the hosts, in order, and rejects it iff one of several hosts is empty or unparseable; commas in the path, query or fragment never split; byte positions always fall on character boundaries.", "quantifier": "every URL string", "why_tests_cant": "Scanner over arbitrary Unicode strings.", "anchors": ["src/validators/url.rs::parse_multihost_url"]}
{"id": "C48", "title": "Error messages show their own context", "statement": "The rendered message of an error is its template with each placeholder replaced by the corresponding context value, whatever text the values contain.", "quantifier": "every error type and all context values", "why_tests_cant": "Values are user controlled; substitution is sequential.", "anchors": ["src/errors/types.rs::ErrorType::render_message"]}
{"id": "C49", "title": "JSON object keys of distinct keys are distinct", "statement": "Serialising a dict to JSON never merges two entries: distinct tuple keys give distinct JSON keys.", "quantifier": "every dict with tuple keys", "why_tests_cant": "Injectivity over all keys.", "anchors": ["src/serializers/infer.rs::infer_json_key_known", "src/serializers/type_serializers/tuple.rs::KeyBuilder"]}
{"id": "C50", "title": "Exactness reflects the least exact step", "statement": "The exactness a member reports to a union is the minimum of the exactness of every conversion made while validating it; nested unions and wrap functions do not raise it.", "quantifier": "every sequence of conversions and nesting", "why_tests_cant": "Invariant over all validation executions.", "anchors": ["src/validators/validation_state.rs::floor_exactness", "src/validators/function.rs::FunctionWrapValidator"]}
{"id": "C51", "title": "Options given at call time are scoped", "statement": "Temporarily overridden validation options (strict, from-attributes, model data) are restored when the nested validation ends, on success and on error; runtime options beat schema options, which beat config.", "quantifier": "every nesting of overrides and every outcome", "why_tests_cant": "Scoping invariant over all executions.", "anchors": ["src/validators/validation_state.rs::rebind_extra", "src/build_tools.rs::schema_or_config"]}
{"id": "C52", "title": "isinstance_python agrees with validate_python", "statement": "isinstance_python(x) is True iff validate_python(x) returns a value and False iff it raises ValidationError; other exceptions propagate in both.", "quantifier": "every schema and input", "why_tests_cant": "Relational property over all inputs.", "anchors": ["src/validators/mod.rs::SchemaValidator::isinstance_python"]}
{"id": "C53", "title": "Nullable, chain and json-or-python compose their parts", "statement": "nullable accepts None as None and otherwise behaves exactly as its inner schema; chain feeds each step's output to the next, fails with the first failing step's error, and is associative; json-or-python behaves as its Python schema for Python objects and as its JSON schema for JSON and strings.", "quantifier": "every inner validator and number of steps", "why_tests_cant": "Induction on the number of steps.", "anchors": ["src/validators/nullable.rs", "src/validators/chain.rs", "src/validators/json_or_python.rs"]}
{"id": "C54", "title": "Recursive schema engine: outputs conform and re-validate", "statement": "For the modelled schema language, any accepted output conforms to the schema's output type, and validating that output again is accepted with the same value.", "quantifier": "every schema (nested, recursive) and every input", "why_tests_cant": "Structural induction over all schemas.", "anchors": ["src/validators/mod.rs::CombinedValidator", "src/validators/*.rs"]}
{"id": "C55", "title": "Errors point at a real part of the input", "statement": "Every error's location, followed from the root of the input, leads to the value the error reports as its input (or to the container in which a required key is missing).", "quantifier": "every schema in the modelled language and every input", "why_tests_cant": "Structural induction over all schemas and inputs.", "anchors": ["src/errors/line_error.rs", "src/errors/location.rs", "src/validators/*.rs"]}
{"id": "C56", "title": "A wrap function that only calls its handler is transparent", "statement": "A function-wrap validator whose Python function does nothing but return handler(value) accepts and rejects exactly the inputs its inner schema does, with the same value or the same errors, under every combination of validation options (strict, from_attributes, by_alias, by_name, partial mode).", "quantifier": "all inner schemas, inputs and validation options", "why_tests_cant": "Tests try a handful of inner schemas with default options; the options the handler forwards to the inner validator matter only in combinations that tests do not enumerate.", "anchors": ["src/validators/function.rs", "src/validators/generator.rs"]}
{"id": "C57", "title": "Float bounds are exact and NaN lies within none", "statement": "float with le/lt/ge/gt accepts a finite or infinite value iff it meets every bound as a real-number comparison, and rejects NaN whenever any bound is configured; the value is returned unchanged.", "quantifier": "every double and every set of bounds", "why_tests_cant": "2^64 values times bounds; NaN comparisons are where naive negated tests go wrong.", "anchors": ["src/validators/float.rs::ConstrainedFloatValidator"]}
{"id": "C58", "title": "Boolean words are exactly the documented ones", "statement": "In lax mode a string is read as True (False) iff, ignoring ASCII case, it is one of 1, t, y, on, yes, true (0, f, n, no, off, false); every other string is rejected.", "quantifier": "every string", "why_tests_cant": "Unbounded domain; tests try a few words.", "anchors": ["src/input/shared.rs::str_as_bool"]}
{"id": "C59", "title": "Enum schemas accept only members and their values", "statement": "An enum schema returns only the input itself when it is a member, the member whose value the input is read as, or what the class or its missing hook makes of the input; in strict mode a Python input must be a member.", "quantifier": "every enum (plain, int, str, float), input and mode", "why_tests_cant": "Tests try a few values; the fallbacks (class call, missing hook, JSON input) interact with the member values.", "anchors": ["src/validators/enum_.rs", "src/validators/literal.rs"]}
{"id": "C60", "title": "JSON and Python inputs agree on scalars", "statement": "A JSON scalar and the Python object it stands for are read as the same int, bool, str or float, or rejected with the same error, in strict and in lax mode.", "quantifier": "every JSON scalar and both modes", "why_tests_cant": "Two independent implementations over an unbounded domain.", "anchors": ["src/input/input_json.rs", "src/input/input_python.rs"]}
{"id": "C61", "title": "Strict mode does not convert", "statement": "In strict mode int, bool, str and bytes accept exactly the instances of their type (bool not being an int), with their value unchanged, and never report a lax match; the int schema only ever returns ints.", "quantifier": "every Python object and schema option", "why_tests_cant": "Universal over Python classes, including subclasses and enum members.", "anchors": ["src/input/input_python.rs"]}
{"id": "C62", "title": "Dates and datetimes convert only at midnight", "statement": "A datetime is accepted as a date only in lax mode and only at midnight, giving its own calendar date; a date is accepted as a datetime only in lax mode, as midnight of that day without a time zone.", "quantifier": "every date, datetime, time zone and mode", "why_tests_cant": "Universal over datetimes; the fallbacks of the two validators call each other's reader.", "anchors": ["src/validators/date.rs::date_from_datetime", "src/validators/datetime.rs::datetime_from_date", "src/input/input_python.rs::validate_datetime"]}
{"id": "C63", "title": "Times of day from numbers", "statement": "In lax mode an integer is accepted as a time of day iff it is at least 0 and less than 86400, giving that many seconds after midnight; a float is accepted only if it is not negative, giving the time within a microsecond of it.", "quantifier": "every 64-bit integer and finite double", "why_tests_cant": "Casts between 64-bit, 32-bit and floating-point numbers at the boundaries.", "anchors": ["src/input/datetime.rs::int_as_time", "src/input/datetime.rs::float_as_time"]}
{"id": "C64", "title": "A lazily serialised generator gives the list of JSON mode", "statement": "Iterating the object returned by to_python for a generator field yields, one at a time and in order, exactly the items that JSON-mode serialisation of the same generator collects, and fails at the same item with the same error; include and exclude by index apply alike.", "quantifier": "every iterator, item serialiser and filter", "why_tests_cant": "Universal over iterators and filters; the two loops are separate implementations of the same filter.", "anchors": ["src/serializers/type_serializers/generator.rs"]}
{"id": "C65", "title": "Tuple serialisation gives each item to its own serialiser", "statement": "Serialising a tuple visits every item exactly once, in order, with the serialiser of its position: the i-th one of a fixed tuple (items beyond are inferred after one warning, an error in strict mode), and with a variadic item the serialisers after it belong to the last items.", "quantifier": "every tuple schema, tuple, filter and serialisers", "why_tests_cant": "Unbounded lengths and arbitrary serialisers; positions counted from both ends.", "anchors": ["src/serializers/type_serializers/tuple.rs::TupleSerializer::for_each_tuple_item_and_serializer"]}
{"id": "C66", "title": "URL schemas accept what fits and fill in only what is missing", "statement": "A url or multi-host-url schema succeeds iff the text is at most max_length bytes, parses (strictly: without violations other than about credentials), has an allowed scheme and a host when required; every host without a port receives the default port, a missing host and an empty path receive their defaults, nothing else changes, and an instance needing nothing is returned itself.", "quantifier": "every input, URL library and schema setting", "why_tests_cant": "Universal over texts, instances and combinations of defaults applied one after the other.", "anchors": ["src/validators/url.rs::check_sub_defaults", "src/validators/url.rs::UrlValidator::validate", "src/validators/url.rs::MultiHostUrlValidator::validate"]}
{"id": "C67", "title": "unicode_string decodes the host and nothing else", "statement": "The unicode form of a URL is its text with the labels of the domain decoded from punycode (for special schemes) and every other character unchanged.", "quantifier": "every URL and punycode decoder", "why_tests_cant": "Byte ranges computed in a string made of optional parts.", "anchors": ["src/url.rs::unicode_url", "src/url.rs::decode_punycode"]}
{"id": "C68", "title": "A multi-host URL is faithful to its text", "statement": "str() of a multi-host URL lists all hosts in order with path, query and fragment after them; parsing this text gives the URL back, so that pickling preserves it; equal multi-host URLs have equal hashes.", "quantifier": "every multi-host URL", "why_tests_cant": "Byte offsets in strings of arbitrary parts; round trip through an independent parser.", "anchors": ["src/url.rs::PyMultiHostUrl"]}
{"id": "C69", "title": "build keeps every part it is given", "statement": "Url.build and MultiHostUrl.build produce a text from which every given part can be read back; several hosts are joined by commas, and a host is refused only if none of host, username, password and port is given.", "quantifier": "all arguments", "why_tests_cant": "Arbitrary strings in each position.", "anchors": ["src/url.rs::PyUrl::build", "src/url.rs::PyMultiHostUrl::build", "src/url.rs::UrlHostParts"]}
{"id": "C70", "title": "Dataclass arguments bind as in the standard library", "statement": "Validating the arguments of a dataclass succeeds iff the __init__ that the standard library makes for its fields would take them and every argument, needed default and extra item validates; each field then has the validated form of the argument that Python would bind to it, else its default; init-only values are kept in field order for __post_init__. On rejection every surplus, unknown, doubled and missing argument and every invalid one is reported, at its index or name, and nothing else is.", "quantifier": "every dataclass, every call (positional and keyword arguments), all validators", "why_tests_cant": "Universal over signatures and calls; the binding is a hand-written loop over fields with an index, a set of used names and a count.", "anchors": ["src/validators/dataclass.rs::DataclassArgsValidator::validate"]}
{"id": "C71", "title": "Assignment to a dataclass attribute", "statement": "Assigning to an attribute of a validated dataclass either fails and leaves the instance unchanged, or sets that attribute to the output of its field's validator (shown the other fields) and changes no other attribute; nothing can be assigned to a frozen instance or field.", "quantifier": "every dataclass, instance, attribute and value", "why_tests_cant": "Universal over instances; the attributes are rebuilt from a dict on every assignment.", "anchors": ["src/validators/dataclass.rs::DataclassValidator::validate_assignment", "src/validators/dataclass.rs::DataclassArgsValidator::validate_assignment"]}
{"id": "C72", "title": "Dataclass instances", "statement": "An instance is returned as it is unless it is to be revalidated; in strict mode other Python inputs are rejected; a new instance (or self in __init__) gets exactly the validated attributes before __post_init__ is called, once, with the init-only values; a failing __init__ leaves the instance as it was; revalidating an instance with valid fields gives an instance with the same fields.", "quantifier": "every dataclass, input, revalidation mode, with or without slots and __post_init__", "why_tests_cant": "Universal over classes and instances; several paths build instances.", "anchors": ["src/validators/dataclass.rs::DataclassValidator::validate", "src/validators/dataclass.rs::DataclassValidator::validate_init", "src/validators/dataclass.rs::DataclassValidator::set_dict_call", "src/validators/dataclass.rs::DataclassValidator::dataclass_to_dict"]}
{"id": "C73", "title": "Model instances", "statement": "An instance of a model class is returned as it is unless it is to be revalidated. Any other input makes a new instance that has exactly the validated fields, extra items and set of fields, before post_init is called, and is not an exact match. Revalidation reads all attributes of the instance, extra items included, keeps its set of fields, and accepts what validation has made. __init__ makes the same instance as validation, and a failing one leaves the instance as it was.", "quantifier": "every model class (with or without root, custom __init__, post_init), input, instance and revalidation mode", "why_tests_cant": "Universal over classes and instances; several paths build instances.", "anchors": ["src/validators/model.rs::ModelValidator::validate", "src/validators/model.rs::ModelValidator::validate_construct", "src/validators/model.rs::ModelValidator::validate_init"]}
{"id": "C74", "title": "Both ways to JSON agree", "statement": "For the same schema, value and arguments, to_python(mode='json') returns the value that a reader of the output of to_json sees, made of JSON types only; or both raise the same error; with the same warnings.", "quantifier": "every schema of models, typed dicts, lists, sets, dicts, nullable, scalars, Any and recursive definitions; every object graph; all arguments", "why_tests_cant": "Every serialiser is written twice; values, cycles and schemas are unbounded.", "anchors": ["src/serializers/infer.rs", "src/serializers/fields.rs", "src/serializers/type_serializers/model.rs", "src/serializers/type_serializers/list.rs", "src/serializers/type_serializers/dict.rs", "src/serializers/type_serializers/set_frozenset.rs", "src/serializers/type_serializers/simple.rs"]}
{"id": "C75", "title": "Serialisation comes to an end", "statement": "Serialising terminates for every value, cyclic ones included, with every (recursive) schema: calls never nest deeper than the limit of the recursion guard.", "quantifier": "every schema, object graph and arguments", "why_tests_cant": "Object graphs may be cyclic, schemas recursive, and serialisers change midway by inference.", "anchors": ["src/serializers/infer.rs", "src/serializers/extra.rs::recursion_guard", "src/serializers/type_serializers/definitions.rs"]}
{"id": "C76", "title": "Plain data comes out as it is", "statement": "Data made of None, bool, int, finite float, str, list, tuple and dict with str keys, nested no deeper than the limit, is written by to_json exactly as it is, and copied by to_python, without errors or warnings, however often objects are shared; nested deeper it is refused.", "quantifier": "every plain value", "why_tests_cant": "Universal over values; false reports of circular references would come from sharing or from leftovers in the guard.", "anchors": ["src/serializers/infer.rs", "src/recursion_guard.rs"]}
{"id": "C77", "title": "Cyclic data is refused", "statement": "If a value reaches itself, anywhere below the value serialised, to_json and to_jsonable_python raise.", "quantifier": "every object graph of lists, tuples, sets, dicts, dataclasses, enums, generators and fallback results", "why_tests_cant": "Cycles of any length, anywhere.", "anchors": ["src/serializers/infer.rs"]}
{"id": "C78", "title": "serialize_as_any uses the serialiser of each object", "statement": "With serialize_as_any=True every model is written by the serialiser of its own class, wherever it occurs.", "quantifier": "every model and place", "why_tests_cant": "Depends on a mode that flips between levels and on the recursion guard.", "anchors": ["src/serializers/infer.rs", "src/serializers/type_serializers/model.rs", "src/serializers/extra.rs::DuckTypingSerMode"]}
{"id": "C79", "title": "Schema serialisation writes what the schema says", "statement": "A value of the type its schema describes is written by to_json as exactly the document the schema stands for: scalars as JSON scalars, lists, sets and dicts item by item and in order, models as objects with their fields in the order of the instance under alias or name (the by_alias argument comes before the class setting, the default is the name), without excluded fields and, with exclude_none, those that are None, then the extra items; without warnings. Nested beyond the limit of the recursion guard it is refused with the error for depth.", "quantifier": "every schema of models, root models, typed dicts, lists, sets, dicts, nullable, scalars, Any and recursive definitions; every conforming object graph; by_alias, exclude_none, exclude_unset", "why_tests_cant": "Schemas and values are unbounded and recursive; the guard must not refuse shared objects.", "anchors": ["src/serializers/fields.rs", "src/serializers/type_serializers/model.rs", "src/serializers/type_serializers/list.rs", "src/serializers/type_serializers/dict.rs", "src/serializers/type_serializers/definitions.rs", "src/serializers/extra.rs::serialize_by_alias_or"]}
{"id": "C80", "title": "JSON round trip", "statement": "What to_json writes for a value of a schema is accepted by validate_json of the same schema, in strict mode too, and gives an equal value, which is written as the same document again: scalars, lists, tuples and dicts item by item, models and typed dicts field by field, extra items included, through recursive definitions, with by_alias, exclude_none and exclude_unset, as long as each field is written under a name it is looked up by, what is left out is the default of its field, and scalars come back.", "quantifier": "every schema of models, root models, typed dicts, lists, tuples, dicts, nullable, scalars, Any and recursive definitions; every value of it; by_alias, exclude_none, exclude_unset; strict, by_alias, by_name and from_attributes of the validation", "why_tests_cant": "Two engines with their own recursion, guards, aliases and defaults have to agree on unbounded schemas and values; tests try a few models.", "anchors": ["src/serializers/fields.rs", "src/serializers/type_serializers/model.rs", "src/validators/model_fields.rs", "src/validators/model.rs", "src/validators/typed_dict.rs", "src/input/input_json.rs", "src/lookup_key.rs", "src/validators/definitions.rs"]}
{"id": "C81", "title": "Decimal constraints are exact", "statement": "A decimal is accepted iff its value has at most max_digits digits, at most decimal_places of them after the point and the rest before it, is an integer multiple of multiple_of, and lies within the bounds; how it is written (trailing zeros, exponent) makes no difference; it is returned as it is. NaN and infinities are refused unless allowed, and NaN lies within no bound.", "quantifier": "every Decimal, every decimal schema, every context", "why_tests_cant": "Digits, exponents and the precision of the context are unbounded; tests try a few short decimals.", "anchors": ["src/validators/decimal.rs::DecimalValidator::validate", "src/validators/decimal.rs::extract_decimal_digits_info"]}
{"id": "C82", "title": "The JSON text stands for the serialised document", "statement": "What to_json writes is UTF-8 text in the grammar of RFC 8259 that stands for the document serialised and for no other document, with and without indentation; different documents never have the same text; without indentation the text is a single line.", "quantifier": "every document of nulls, booleans, integers, doubles, strings, arrays and objects, every depth, every indentation", "why_tests_cant": "Strings, nesting and combinations of escapes are unbounded, and unambiguity is about all pairs of documents; tests compare a few outputs with json.dumps.", "anchors": ["src/serializers/ser.rs::PythonSerializer", "src/serializers/ser.rs::format_escaped_str_contents", "src/serializers/shared.rs::to_json_bytes"]}
{"id": "C83", "title": "The reports of a ValidationError agree and survive pickling", "statement": "errors(), json(), str() and error_count() of a ValidationError report the same line errors: the same number, in the same order, with exactly the keys asked for, each with the value it stands for; asking for less only removes keys; str() shows every error even if its message cannot be made; with hide_input, str() does not depend on the inputs; an error that is pickled and unpickled gives the same reports.", "quantifier": "every list of line errors of every error type, every context, location, input, title and every combination of the flags", "why_tests_cant": "There are 101 error types with their fields, contexts given by users that overlap with the fields, and all combinations of flags; pickling must keep the reports of all of them. Tests check some types with some contexts.", "anchors": ["src/errors/validation_exception.rs::errors", "src/errors/validation_exception.rs::json", "src/errors/validation_exception.rs::display", "src/errors/validation_exception.rs::__reduce__", "src/errors/validation_exception.rs::from_exception_data", "src/errors/types.rs::py_dict", "src/errors/types.rs::ErrorType"]}
{"id": "C84", "title": "Custom serialisation functions are used when they should be, and hide what they replace", "statement": "A serialisation function is called just when `when_used` says, with the arguments it asks for; what is written then is what the return schema makes of its result, and depends on the value in no other way; when it is not used the schema is serialised as if it had no function; an exception of the function is reported as PydanticSerializationError; the handler of a wrap function does what the schema would do, so that `lambda v, h: h(v)` changes nothing; to_json writes what to_python(mode='json') gives; nothing panics.", "quantifier": "every schema built of plain, wrap, format and to-string serialisers on any other serialisers, every Python function that calls its handler any number of times, every value, mode, filter and setting", "why_tests_cant": "The functions are users' code, which may call the handler with anything, catch what it raises, or fail; tests try a few functions in a few modes.", "anchors": ["src/serializers/type_serializers/function.rs::FunctionPlainSerializer", "src/serializers/type_serializers/function.rs::FunctionWrapSerializer", "src/serializers/type_serializers/function.rs::SerializationCallable", "src/serializers/type_serializers/function.rs::on_error", "src/serializers/type_serializers/function.rs::SerializationInfo", "src/serializers/type_serializers/format.rs::WhenUsed", "src/serializers/type_serializers/format.rs::FormatSerializer", "src/serializers/type_serializers/format.rs::ToStringSerializer", "src/serializers/extra.rs::CollectWarnings"]}
{"id": "C85", "title": "An arguments-v3 schema binds a call as Python does, however the call is spelled", "statement": "An `arguments-v3` schema is built only for parameter lists of Python's grammar. A call given as a mapping from the parameters' names is accepted when everything given validates, the rest has defaults and no key is unknown; then Python can call the function with the output, and every parameter, `*args` and `**kwargs` get the validated form of what the mapping has under their name. Each error is reported under the name of the parameter concerned. A call given as ArgsKwargs is treated as by the older `arguments` schema; and both spellings of one call are accepted or rejected together and bind the same values.", "quantifier": "every list of parameters of the six modes, every validator of each, every mapping and every call", "why_tests_cant": "Signatures combine six kinds of parameters with defaults, and each call has many spellings; tests try a few of each and never compare the two spellings.", "anchors": ["src/validators/arguments_v3.rs::ArgumentsV3Validator::build", "src/validators/arguments_v3.rs::ArgumentsV3Validator::validate", "src/validators/arguments_v3.rs::ArgumentsV3Validator::validate_from_mapping", "src/validators/arguments_v3.rs::ArgumentsV3Validator::validate_from_argskwargs"]}
{"id": "C86", "title": "A UUID schema accepts exactly the UUIDs of its version, however spelled, and what is written is read back", "statement": "An instance of `uuid.UUID` is accepted unchanged exactly if it is of the version asked for; any other input exactly if its text, or its bytes as text, or else its sixteen bytes, spell a UUID of that version and it is not a Python object in strict mode. Everything accepted reports the version asked for, which means the bits RFC 9562 prescribes for version and variant. The text written is the canonical one, tells any two UUIDs apart, and is accepted exactly if the UUID itself is, giving an equal UUID. Only coercing a Python object lowers the exactness, and a refusal is one error about the input.", "quantifier": "for every schema, instance or other input of the three kinds, state and mode; for every parser that reads back what is written and UTF-8 decoder", "why_tests_cant": "Tests try a few UUIDs of each version; the condition on variant bits, on bytes that might be text, and the agreement of text and instance range over 2^128 values.", "anchors": ["src/validators/uuid.rs:80-93", "src/validators/uuid.rs:99-158", "src/validators/uuid.rs:166-240", "src/serializers/type_serializers/uuid.rs:14-19"]}
{"id": "C87", "title": "Complex numbers: what is accepted, and when the text written is read back", "statement": "A `complex` schema accepts a complex object, text that Python's `complex()` reads, and, unless the schema is strict, numbers, with the value they stand for; text of a Python object is a conversion, text in JSON is not. The text written in JSON mode is read back as the same number, except for the sign of a real part of zero and for numbers with a real part whose imaginary part is NaN or negative zero, whose text nothing reads. The validator panics exactly for Python integers of more than 64 bits in a lax schema, and `strict` of the call has no influence.", "quantifier": "for every complex number, input of the three kinds, schema and state; for every decimal text of magnitudes that C's strtod reads back", "why_tests_cant": "Tests write a handful of numbers; the failing ones are those with NaN or a negative zero in one part only, and the agreement with Python's grammar of complex numbers concerns all floats.", "anchors": ["src/validators/complex.rs:41-75", "src/input/input_python.rs:629-666", "src/input/input_json.rs:346-368", "src/input/input_string.rs:247-252", "src/serializers/type_serializers/complex.rs:76-88"]}
{"id": "C88", "title": "Json[T] validates text as T validates the JSON in it, and writes with round_trip what it reads", "statement": "`Json[T].validate_python(x)` gives the value or the errors of `T.validate_json(x)` under the same options; an input is accepted exactly if it is text or bytes holding JSON that T accepts as JSON input, and otherwise refused as `json_type`, as `json_invalid`, both about the whole input, or with T's own errors. The mode of the input and the options are as before afterwards. With round_trip=True, however deeply Json is nested, the text written, as JSON, as Python object or as key, is read back as the value if T reads back what it writes.", "quantifier": "for every inner schema, input of any kind, state and options; every depth of nesting; every parser that reads what is written", "why_tests_cant": "The equivalence concerns all inner schemas and options, the round trip all depths of nesting; tests use a few inner types and one level.", "anchors": ["src/validators/json.rs:24-45", "src/validators/json.rs:51-119", "src/validators/mod.rs:233-260", "src/validators/mod.rs:386-445", "src/serializers/type_serializers/json.rs:48-101"]}
{"id": "C89", "title": "validate_strings reads text as lax validate_python does, accepts nothing else, and says where it is wrong", "statement": "For input made of texts and of dicts with text keys, `validate_strings` gives the value or the errors, with their order and locations, of `validate_python(strict=False)`; strictness changes nothing unless the schema has dates or datetimes, and even then what strict mode accepts lax mode accepts with the same value. Whatever it accepts is a text or a dict of such wherever the schema looks; lists are never accepted, nor `None`. A value that is no text is reported under the field it is in.", "quantifier": "for every schema of the ten text types, nullables, dicts, lists and models, nested to any depth, every input and every strict flag", "why_tests_cant": "Equality of two modes is a statement about all schemas and inputs; tests compare a few texts and check few error reports of mixed inputs.", "anchors": ["src/input/input_string.rs:26-63", "src/input/input_string.rs:65-253", "src/input/input_string.rs:303-325", "src/lookup_key.rs:133-143", "src/validators/mod.rs:262-293", "src/validators/dict.rs:109-156", "src/validators/model_fields.rs:180-363"]}
{"id": "C90", "title": "Dates, durations, URLs, enums, literals and dataclasses are written the same in every place, and what is of the wrong type is written as Any after one warning", "statement": "A date, time, datetime or URL is written as the same text by to_json, by to_python(mode='json') and as dict key; a duration as its ISO text or its seconds as configured; an enum member as its value; a dataclass instance as its fields. In mode 'python' the object itself comes out. A value that is not of the field's type is written as under Any after exactly one warning naming the type, None without a warning; inside a union it is refused. A literal is checked in unions only. to_json and to_python(mode='json') use the same schema.", "quantifier": "for every value, every state of warnings and guard, every mode and every include and exclude", "why_tests_cant": "Each place is a separate function for each of twelve types (to_python, serde_serialize, json_key); tests sample some pairs, and the places where a warning is missing are invisible to a test of the output.", "anchors": ["src/serializers/type_serializers/datetime_etc.rs:17-129", "src/serializers/type_serializers/timedelta.rs:36-82", "src/serializers/type_serializers/url.rs:15-92", "src/serializers/type_serializers/decimal.rs:32-76", "src/serializers/type_serializers/literal.rs:79-167", "src/serializers/type_serializers/enum_.rs:52-120", "src/serializers/type_serializers/dataclass.rs:118-235", "src/serializers/type_serializers/json_or_python.rs:51-76"]}
{"id": "C91", "title": "Building a serialiser ends in a serialiser or a SchemaError, and schemas that only matter for validation are serialised as what they yield", "statement": "SchemaSerializer of a chain serialises as its last step, of lax-or-strict as its strict schema, of default and custom-error as the inner schema, of call as its return schema; is-instance, is-subclass and callable as Any; building never panics.", "quantifier": "for every schema built from these, nested to any depth", "why_tests_cant": "A panic depends on the nesting of schemas; tests build well-formed schemas only.", "anchors": ["src/serializers/type_serializers/other.rs:14-113", "src/serializers/type_serializers/with_default.rs:22-34"]}
{"id": "C92", "title": "A validated call calls the function once, with the validated arguments, and only if they are valid; class checks give the object itself", "statement": "A call schema calls its function exactly once with the validated positional and keyword arguments if these are valid, and not at all otherwise. The result is what the function returns, validated by the return schema if there is one, whose errors are located under 'return'. An exception of the function is raised as it is. is-instance, is-subclass and callable give the object itself if it qualifies and refuse everything else, also every JSON input.", "quantifier": "for every arguments validator, return validator, function, input and state", "why_tests_cant": "How often and with what the function is called is an effect; tests count calls for a few signatures.", "anchors": ["src/validators/call.rs:78-102", "src/validators/is_instance.rs:51-76", "src/validators/is_subclass.rs:46-71", "src/validators/callable.rs:28-41"]}
{"id": "C93", "title": "Reusing the validator or serialiser of a class does not change what a schema means", "statement": "SchemaValidator takes the validator a model or dataclass already has instead of building it from the schema again, and SchemaSerializer its serialiser. Only the class's own attributes count, only if it is complete, and not for dataclasses with a generic origin. What is built does what its schema says, however much of it is reused.", "quantifier": "for every schema, every sequence of class definitions and every meaning of the parts", "why_tests_cant": "Whether a validator is reused depends on the history of the program; a test sees one history.", "anchors": ["src/common/prebuilt.rs:7-50", "src/validators/prebuilt.rs:16-41", "src/validators/mod.rs:558-571", "src/serializers/prebuilt.rs:17-70", "src/serializers/shared.rs:152-208"]}
{"id": "C94", "title": "Bytes schemas accept exactly the inputs that stand for bytes whose number is within the limits", "statement": "A bytes schema takes Python bytes as they are, bytearrays and strings unless strict, and strings of JSON and of validate_strings always, decoded as the configuration says (UTF-8, base64 or hexadecimal). min_length and max_length bound the number of bytes, not of characters, inclusively; the error says which limit is broken. What was accepted, written to JSON, is accepted again as the same bytes.", "quantifier": "for every pair of limits, mode, strictness and input", "why_tests_cant": "Whether characters or bytes are counted shows only for inputs where they differ; tests use ASCII.", "anchors": ["src/validators/bytes.rs:43-60", "src/validators/bytes.rs:74-109", "src/input/input_python.rs:192-221", "src/input/input_json.rs:125-137", "src/input/return_enums.rs:561-566", "src/validators/config.rs:39-63"]}
{"id": "C95", "title": "What an object is serialised as depends on its class, then its marks, then its bases, then isinstance", "statement": "Wherever no schema tells (inference, Any, fallback for wrong types), an object of a built-in class is serialised as that class says; any other as what carries a serialiser, as a dataclass, as an enum member or as an iterator, in this order; otherwise as the nearest known base class; otherwise by isinstance in a fixed order. It is never taken for an instance of a class it is not an instance of, a class is never taken for one of its instances, and it is unknown (refused or handed to fallback) just if none of these tell. What inference takes for an int, float, str, bool, None, Decimal or UUID the serialiser of that type takes as its own.", "quantifier": "for every object: every class, chain of bases, set of attributes and isinstance relation", "why_tests_cant": "There are more classes than tests can define; which of several marks and bases wins shows only for objects that have several.", "anchors": ["src/serializers/ob_type.rs:98-109", "src/serializers/ob_type.rs:111-179", "src/serializers/ob_type.rs:181-265", "src/serializers/ob_type.rs:278-339", "src/serializers/ob_type.rs:342-370", "src/serializers/ob_type.rs:422-450"]}
{"id": "C96", "title": "A field's function is told the field's name and the validated values of the fields before it", "statement": "A validator function of a field that takes info is given the field's own name as info.field_name and as info.data exactly the values that the finished model or typed dict holds for the fields before it, never anything of a later field, of a failed one, or of the model around; a field's outcome does not depend on what it would do if told otherwise. A dataclass tells the same but leaves out init-only fields. On assignment a field is told all other fields of the instance. The name in the function's schema is used only where there is no field. The validator behind the handler of a wrap function is told the same data but not the name.", "quantifier": "for every model, typed dict and dataclass, every order of fields, every function (before, after, plain, wrap), every input, alias setting and surrounding state", "why_tests_cant": "Which values a function sees depends on the order of fields, on which failed, on defaults and on nesting; a wrong value shows only in functions that read it, and the function may be any.", "anchors": ["src/validators/function.rs:92-117", "src/validators/function.rs:166-191", "src/validators/function.rs:266-285", "src/validators/function.rs:335-385", "src/validators/function.rs:526-560", "src/validators/model_fields.rs:177-248", "src/validators/model_fields.rs:381-455", "src/validators/typed_dict.rs:183-273", "src/validators/dataclass.rs:150-310", "src/validators/generator.rs:241-264"]}
{"id": "C97", "title": "What assignment does through validator functions", "statement": "With functions between a class and its fields an assignment that fails leaves the instance as it was, whatever the functions do. With functions around a class it does so if none of them raises once the class has accepted the value (otherwise the value stays); whatever the outcome, functions that hand on the instance cannot change any other object nor any other attribute, and the assigned attribute holds what it held or what its validator made of the value. Without wrap functions a successful assignment is exactly that of the class. A function before the fields cannot change the value that is assigned, but the rest of the dict it returns becomes the instance unvalidated. All functions are told the name of the attribute.", "quantifier": "for every stack of before, after and wrap functions, every handler use by wrap functions, every model and dataclass, every instance, value and state", "why_tests_cant": "The functions are arbitrary Python code in arbitrary nesting, wrap functions call their handler any number of times and with any object; tests try a few.", "anchors": ["src/validators/function.rs:95-149", "src/validators/function.rs:169-223", "src/validators/function.rs:335-409", "src/validators/function.rs:447-470", "src/validators/generator.rs:266-304", "src/validators/model.rs:184-240", "src/validators/model_fields.rs:381-480", "src/validators/dataclass.rs:582-616", "src/validators/mod.rs:297-327"]}
{"id": "C98", "title": "How many fields a validation reports as set", "statement": "The number by which smart unions choose among members that fit equally well is, for a model, a typed dict or a dataclass that accepts its input, the number of its fields that the input gave a value for (defaults do not count), plus the numbers its fields' validators and defaults report in turn; extra items do not count. A smart union of such members, when none is exact, returns a member with the greatest number, the first of those among equals, whatever was counted before.", "quantifier": "for every model, typed dict and dataclass, every input, every validators of the fields that count or do not, every state, every list of union members", "why_tests_cant": "Which member wins is decided by a number accumulated in hidden state through arbitrarily nested validators; a test sees the winner for a few unions only.", "anchors": ["src/validators/model_fields.rs:163-163", "src/validators/model_fields.rs:208-208", "src/validators/model_fields.rs:369-369", "src/validators/typed_dict.rs:186-186", "src/validators/typed_dict.rs:227-227", "src/validators/typed_dict.rs:272-272", "src/validators/dataclass.rs:162-162", "src/validators/dataclass.rs:184-184", "src/validators/dataclass.rs:232-243", "src/validators/dataclass.rs:360-360", "src/validators/validation_state.rs:92-94", "src/validators/union.rs:100-200"]}
{"id": "C99", "title": "Mutable defaults are not shared", "statement": "A default that cannot be hashed (a list, a dict, a tuple holding a list) is copied before it is handed out: whatever the program does to the defaults it was given and to everything else it can get at, the stored default does not change, every later default looks as the default did when the validator was built, and shares no mutable object with anything the program could get at before. The same holds for a default without mutable parts, which is not copied.", "quantifier": "for every graph of objects, every default in it, every sequence of validations interleaved with arbitrary mutations, allocations and reads by the program", "why_tests_cant": "Aliasing shows only after a mutation in between; the sequences of mutations through all paths into a graph of objects cannot be enumerated.", "anchors": ["src/validators/with_default.rs:24-68", "src/validators/with_default.rs:133-137", "src/validators/with_default.rs:177-208"]}
{"id": "C100", "title": "Unions do not depend on what was serialised before", "statement": "Whether a union of serialisers tries its members a second time, accepting subclasses, depends on the schema alone: the answer is yes exactly if a serialiser that accepts more the second time (a model, a dataclass, a tuple, an integer) can be reached through the members, however definitions refer to each other, and does not depend on which values were serialised before or whether the serialiser was printed. Finding the answer always comes to an end.", "quantifier": "for every graph of definitions and references and every sequence of earlier questions", "why_tests_cant": "The answers are cached reference by reference, and the answers within a cycle depend on where the cycle was entered; the orders of first uses in all graphs cannot be enumerated.", "anchors": ["src/definitions.rs:196-246", "src/serializers/type_serializers/definitions.rs:55-62", "src/serializers/type_serializers/definitions.rs:126-130", "src/serializers/type_serializers/union.rs:184-186"]}
{"id": "C101", "title": "Error locations do not depend on earlier validations", "statement": "The name of a validator, which is part of the location of errors in unions and of messages, depends on the schema alone: it is the name written out, lists and references within it included, whatever names were asked for before. In recursive schemas, where names cannot be written out, it is the name with dots in place of the names of references. Finding a name always comes to an end, and a name given stays.", "quantifier": "for every graph of definitions and lists and every sequence of earlier questions", "why_tests_cant": "Names are cached by definition and by list, and those within a cycle depend on where the cycle was entered; the orders of first uses in all graphs cannot be enumerated.", "anchors": ["src/definitions.rs:64-72", "src/definitions.rs:223-261", "src/validators/list.rs:162-180", "src/validators/definitions.rs:124-126", "src/validators/union.rs:271"]}
{"id": "C102", "title": "Threads that share a serialiser do not disturb each other's answers", "statement": "When several threads use one serialiser at the same time, whether a definition accepts more on a second try is computed by one thread at a time, no thread waits for another, an answer once cached is never replaced, nobody is told yes wrongly, and every thread is told what it would be told on its own.", "quantifier": "for every graph of definitions, any number of threads and every interleaving of their steps", "why_tests_cant": "A race shows for particular interleavings of the first uses only; the interleavings cannot be enumerated by tests.", "anchors": ["src/definitions.rs:196-246", "src/lib.rs:109", "src/serializers/type_serializers/definitions.rs:126-130"]}
{"id": "C103", "title": "Settings come from the schema, else from the nearest configuration", "statement": "A setting of a validator or serialiser is the entry of its own schema if there is one, else that of the configuration of the nearest model, dataclass or typed dict around it (of the configuration given for the whole if there is none), else the default; an entry of the wrong type is rejected. Models, dataclasses and typed dicts do not depend on configurations around them. A validator and a serialiser built from one schema have the same settings, a reference has the settings of the schema in its place, and an entry None is no entry.", "quantifier": "for every schema tree, every configuration and every setting", "why_tests_cant": "Settings interact with nesting and with definitions; the nestings and the combinations of entries are unbounded.", "anchors": ["src/build_tools.rs:14-46", "src/build_tools.rs:183-207", "src/tools.rs:26-58", "src/validators/model.rs:76-82", "src/validators/dataclass.rs:474-485", "src/validators/typed_dict.rs:53-62", "src/serializers/type_serializers/typed_dict.rs:20-45", "src/serializers/type_serializers/model.rs:35-38", "src/serializers/type_serializers/model.rs:100-124", "src/validators/definitions.rs:18-41"]}
{"id": "C104", "title": "The cause of a ValidationError is the exceptions of the user's functions", "statement": "With validation_error_cause the cause of a ValidationError is the group of the exceptions the errors were made from, in the order of the errors (none if there are none), and each of them gets one note per error that names the location of that error; without it nothing happens. An exception has no notes that are not about the errors of this ValidationError.", "quantifier": "for all lists of line errors, all locations, all exceptions and all their earlier notes", "why_tests_cant": "Exceptions are mutable objects that outlive a validation; which notes they carry depends on all earlier validations and on handlers in between.", "anchors": ["src/errors/validation_exception.rs:50-91", "src/errors/validation_exception.rs:115-199", "src/validators/generator.rs:305-340", "src/validators/function.rs:503-524"]}
{"id": "C105", "title": "Lax mode converts exactly what the conversion table says", "statement": "In lax mode a bool, an int, a string, a float or bytes is made of a Python object exactly if the conversion table has a line for that object, with the value of that line: e.g. an int is made of ints, bools, texts that read as one, whole decimals, and objects that are or have a whole float within 64 bits. Everything else is rejected with one of the documented errors; nothing panics.", "quantifier": "for all Python objects, seen as their class, their __float__, their __index__, their str() and the value of an enum member", "why_tests_cant": "Classes with __float__ or __index__, subclasses and enum members combine without bound; tests try a few values per class.", "anchors": ["src/input/input_python.rs:149-190", "src/input/input_python.rs:192-221", "src/input/input_python.rs:223-244", "src/input/input_python.rs:246-284", "src/input/input_python.rs:302-327", "src/input/shared.rs:25-109", "src/input/shared.rs:202-230"]}
{"id": "C106", "title": "Dates and times are read exactly from what the conversion table says", "statement": "A date, time, datetime or timedelta is made of a Python object exactly if the conversion table has a line for that object and mode, with the value of that line; a duration is returned as the timedelta of exactly that length if Python has one; a date text is midnight of that day for a datetime in lax mode. Everything else is rejected with one of the documented errors.", "quantifier": "for all Python objects, seen as their class, content, __index__ and float, both modes, any parser of texts and any clock", "why_tests_cant": "Classes, modes and numeric protocols combine without bound.", "anchors": ["src/input/input_python.rs:497-522", "src/input/input_python.rs:524-556", "src/input/input_python.rs:558-592", "src/input/input_python.rs:594-627", "src/input/datetime.rs:171-196", "src/validators/datetime.rs:144-181"]}
{"id": "C107", "title": "A tagged union serialises a value with the choice its tag validates with", "statement": "The choice of a tagged union that serialises a value is the one that validation takes for the tag of the value. The tag is the item of a dict or the attribute of another object, or what the discriminator function returns. A value whose tag is unknown is serialised by trying all choices; one without tag is too, and a warning is given at top level.", "quantifier": "for all lists of choice keys, tags, discriminators, values and member serialisers, for any Python str() and equality", "why_tests_cant": "Keys and tags of any type may equal each other without printing alike, or print alike without being equal.", "anchors": ["src/serializers/type_serializers/union.rs:196-234", "src/serializers/type_serializers/union.rs:294-357", "src/validators/union.rs:308-327", "src/validators/union.rs:347-385", "src/common/union.rs:8-24"]}
{"id": "C108", "title": "An error is made from a name and a context exactly if the context has its fields", "statement": "PydanticKnownError and from_exception_data make an error exactly if there is an error type of the given name and the context has every field of that type, readable as the type of the field: texts, counts of 64 bits, multiples of 32 bits, numbers (an int of 64 bits if it can be, else a float, else a text) or any object. Otherwise a KeyError names the error type, or a TypeError the first field at fault. The message is that for Python or for JSON by the kind of input. json() fails exactly if some error cannot be written, with the text of the first such.", "quantifier": "for all names, contexts, objects and lists of errors, any conversion of objects to ints, floats and texts", "why_tests_cant": "Names, fields and objects combine without bound.", "anchors": ["src/errors/types.rs:45-69", "src/errors/types.rs:101-119", "src/errors/types.rs:625-629", "src/errors/types.rs:805-817", "src/errors/validation_exception.rs:583-665"]}
{"id": "C109", "title": "A string schema with a pattern means what it reads as", "statement": "A schema for strings is refused exactly if its pattern means nothing: a compiled pattern of texts is used as it is, with its flags, whatever the engine; a text is compiled by the engine named, by Rust's if none is; an unknown engine is refused. The validator built gives for every text the outcome the schema reads as: the text is stripped, then too short, too long and not matching are tried in this order, then the case is mapped; which validator was built for it does not show, except that texts with lone surrogates are accepted exactly if the schema asks for nothing.", "quantifier": "for all schemas, engines, patterns, texts and case mappings", "why_tests_cant": "Schemas and texts combine without bound, and so do patterns and engines.", "anchors": ["src/validators/string.rs:22-58", "src/validators/string.rs:81-148", "src/validators/string.rs:155-289"]}
{"id": "C110", "title": "A lazily serialised generator warns of what has been serialised so far", "statement": "Each call of next on a serialised generator serialises the next item the filter keeps, and then warns of that item, of all items before it and of what was warned of before the iterator was made: so a warning is issued again with every later item, and with warnings='error' no item after one that was warned of is ever returned. In JSON mode there is one warning, of all items, which is what the last call warns of. Without such items nothing is issued.", "quantifier": "for all item serialisers, filters, lists of items, warnings before and warning modes", "why_tests_cant": "The warnings of an item depend on all items before it.", "anchors": ["src/serializers/type_serializers/generator.rs:52-143", "src/serializers/type_serializers/generator.rs:153-243", "src/serializers/extra.rs:229-292", "src/serializers/extra.rs:382-476"]}
{"id": "C111", "title": "Python mode asks the property of a computed field once, JSON mode twice", "statement": "Serialising to Python asks each included property once, in order; serialising to JSON asks it once to see whether it is None and, unless it is left out for that, a second time, and writes the second answer. With round_trip none is asked, excluded properties never are. For properties without effects this makes no difference to what is written.", "quantifier": "for all computed fields, properties that read and write any state, filters and options", "why_tests_cant": "Properties may answer differently each time, depending on any state.", "anchors": ["src/serializers/computed_fields.rs:42-109", "src/serializers/computed_fields.rs:147-175", "src/serializers/computed_fields.rs:196-210"]}
{"id": "C112", "title": "Which objects a model is read from, and how", "statement": "A model reads a dict by its items, and another mapping by its items in lax mode. Only with from_attributes, objects are read by their attributes if their class is of another module than builtins, datetime and collections, and pairs of such an object and a dict by the items of the dict and then the attributes; all else is one error, model_type, or model_attributes_type if attributes were allowed. A model read from attributes has no extra items: extra='forbid' and 'allow' accept, refuse and return what 'ignore' does.", "quantifier": "for all objects, classes, models, states and extra behaviours", "why_tests_cant": "The kinds of objects and the attributes they have are unbounded.", "anchors": ["src/input/input_python.rs:372-424", "src/input/input_python.rs:684-699", "src/input/input_python.rs:822-870", "src/validators/model_fields.rs:249-378"]}
{"id": "C113", "title": "What is wrong in a schema is reported as a SchemaError with the way to it", "statement": "A validator is built exactly if nothing is wrong in the schema, as far as it is looked at (not inside models and dataclasses that have their validator). Otherwise the exception is the report of the first thing wrong: for every schema and named field or parameter on the way, outermost first, one line, and then the class and text of what was raised. It is a SchemaError whatever was raised inside, and another exception only if the schema as a whole is no dict or has no text as its type.", "quantifier": "for all schemas, nested to any depth, and all sets of known types", "why_tests_cant": "Schemas nest without bound.", "anchors": ["src/validators/mod.rs:535-571", "src/validators/model_fields.rs:85-88", "src/validators/typed_dict.rs:88-91", "src/validators/dataclass.rs:80-83", "src/validators/arguments.rs:109-112"]}
{"id": "C114", "title": "A set is serialised to the set of its serialised items, or the list in JSON mode", "statement": "In Python mode a set or frozenset is serialised exactly if all its items are and what they are serialised to can be hashed, and comes out as a set of the same kind of the different ones among these values; in JSON mode and by to_json it comes out as the list of them all, one for each item in the order of iteration. Both have as many items as the set.", "quantifier": "for all sets, items, serialisers of items with any state, equalities and hashes", "why_tests_cant": "Sets have any size and serialisers of items may do anything.", "anchors": ["src/serializers/type_serializers/set_frozenset.rs:49-126"]}
{"id": "C115", "title": "exclude_defaults leaves out what validation puts back", "statement": "With exclude_defaults a field is left out exactly if its value equals the default of its schema, found also through validator functions but not behind references or serialisers of its own, and not made of the data of other fields; without it nothing is left out. What is dumped so is loaded again, and every field gets its value back, or its default, which it equals.", "quantifier": "for all lists of fields, schemas, defaults and factories with any effects, and equalities", "why_tests_cant": "Factories may have effects and schemas nest without bound.", "anchors": ["src/serializers/fields.rs:75-84", "src/serializers/type_serializers/with_default.rs:22-84", "src/serializers/shared.rs:145-200", "src/serializers/shared.rs:314-316", "src/validators/with_default.rs:25-70", "src/validators/definitions.rs:95-104"]}
{"id": "C116", "title": "Which configuration decides how values are written", "statement": "In to_json, NaN and infinities, bytes and timedeltas are written in the mode of the configuration that governs their position. Where the schema knows the type, this is the configuration of the nearest model or dataclass around, or that of the serialiser if there is none; nothing is inherited from further out, and a mode that is not set is the default. Where the schema does not know the type it is that of the serialiser, except inside instances of models met there, which are written as their class would. A serialiser is built exactly if all modes that are used are valid.", "quantifier": "for all schemas, configurations, values, classes and positions", "why_tests_cant": "Schemas and values nest without bound.", "anchors": ["src/serializers/config.rs:17-107", "src/serializers/mod.rs:91-106", "src/serializers/mod.rs:239-281", "src/serializers/type_serializers/float.rs:25-31", "src/serializers/type_serializers/bytes.rs:22-29", "src/serializers/type_serializers/timedelta.rs:23-30", "src/serializers/type_serializers/model.rs:100-105", "src/serializers/type_serializers/typed_dict.rs:20-76", "src/serializers/infer.rs:420-505"]}
{"id": "C117", "title": "JSON objects in which a key occurs twice", "statement": "A JSON object is validated as the dict that Python reads in it, where the last value of a key counts: the same is accepted with the same output, and the same errors are reported.", "quantifier": "for all lists of pairs, dict schemas and models with any validators of keys, values and extra items, and bounds on the length", "why_tests_cant": "Any number of pairs may repeat keys in any order.", "anchors": ["src/input/input_json.rs:61-74", "src/input/input_json.rs:260-278", "src/input/input_json.rs:545-575", "src/lookup_key.rs:261-276", "src/validators/dict.rs:68-163", "src/validators/model_fields.rs:123-378"]}
{"id": "C118", "title": "Literals and enums given as text", "statement": "Text that is a key of a JSON object, or the input of validate_strings, is validated by a literal as the same text in Python: it is accepted exactly if it is listed, and gives the listed text. Enums read it alike in strict and lax mode.", "quantifier": "for all lists of literals, enums, texts and both sources of text", "why_tests_cant": "Members of several types interact with the many texts that stand for a bool.", "anchors": ["src/input/input_json.rs:372-520", "src/input/input_string.rs:104-148", "src/validators/literal.rs:99-234", "src/validators/enum_.rs:99-247"]}
{"id": "C119", "title": "Which member of a union text is given to", "statement": "Text is given to the same member of a smart union of scalars wherever it stands: as a value in JSON, as a key of a JSON object, or in validate_strings.", "quantifier": "for all unions of str, bytes, bool, int, float, decimal, date, time, datetime, timedelta and complex in any order, all texts whatever they are read as, and both modes", "why_tests_cant": "The members, their order, the place and the mode combine.", "anchors": ["src/input/input_json.rs:110-520", "src/input/input_string.rs:104-255", "src/validators/union.rs:102-182", "src/validators/date.rs:42-57", "src/validators/datetime.rs:62-77"]}
{"id": "C120", "title": "What is raised when serialising fails", "statement": "Whatever fails while serialising, to_json raises what to_python(mode='json') raises: the same class with the same message.", "quantifier": "for all exceptions raised by called Python code, all values of unknown type or not of the type tried, at any depth below lists, models, dict keys and json schemas, with and without round_trip", "why_tests_cant": "The failure, the way from it to the caller and the mode combine without bound.", "anchors": ["src/serializers/errors.rs:12-61", "src/serializers/errors.rs:152-183", "src/serializers/shared.rs:353-381", "src/serializers/type_serializers/json.rs:49-97", "src/serializers/type_serializers/dict.rs:75-140", "src/serializers/infer.rs:556-573"]}
{"id": "C121", "title": "The option warnings decides only what is done with warnings", "statement": "Whether warnings is 'none', 'warn' or 'error' does not change what a serialisation returns: a value that is returned is the same in every mode, and an exception of the serialisation itself is raised in every mode.", "quantifier": "for all serialisations, as programs that register warnings, fall back to inference and call wrap functions that call their handler any number of times and may catch what it raises, and all filters of Python", "why_tests_cant": "The programs, the functions and their nesting are without bound.", "anchors": ["src/serializers/extra.rs:344-476", "src/serializers/mod.rs:112-215", "src/serializers/type_serializers/function.rs:438-524"]}
