# Formal model of pydantic-core (v2.34.1) in Lean 4

## Approach

The code is modelled area by area as total, computable Lean functions. Each model
definition carries a comment citing the Rust file and lines it follows and the
simplifications made. Four kinds of module:

* `Verif/Model/*.lean` – the model (definitions only, with citations);
* `Verif/Spec/*.lean` or the head of a property file – small independent specifications;
* `Verif/Lemmas/*.lean` – helper lemmas;
* `Verif/Props/*.lean` – the property theorems, each with an `example` showing that a
  concrete non-trivial case meets its hypotheses.

Inner validators / serialisers are *parameters* (arbitrary Lean functions of input and
state), so a theorem about lists, models or unions holds for every inner schema. A
second layer (the engine) ties the combinators together into one recursive schema
language, so that whole-schema properties can be proved by induction.

Rust panics, Python exceptions and validation errors are distinct result values; nothing
is totalised away silently.

Where the code violates the property as stated in `properties.jsonl`, the file proves the
negation on a concrete witness and the strongest true statement under an explicit
hypothesis, named `..._partial`.

## Trusted base

* The Lean 4.33.0 kernel. Axioms: every theorem depends on a subset of `propext`,
  `Classical.choice`, `Quot.sound`; `AXIOMS.md` lists the subset for each claimed theorem.
  No other axioms, no `sorry`, no compiled evaluation.
* The hand translation from Rust to Lean, cited per definition. The Rust code was read, not
  run.
* External code, whose sources were not available, enters as parameters or as the following
  assumptions, each written as a definition or hypothesis where it is used:
  * CPython: `==`, `hash`, `repr`, attribute and item access, `str`/`int`/`float` conversions
    are parameters; a dict is a list of entries with distinct keys in insertion order;
    `PyFloat_AsDouble` of an int is correctly rounded or raises.
  * `jiter`: JSON values are trees; `NumberInt::try_from` accepts the JSON integer grammar with
    at most 4300 digits.
  * `num-bigint`: mathematical integers; `to_f64` is infinite on overflow.
  * `speedate`: `Duration::new` normalises days/seconds/microseconds; durations are ordered by
    their signed value; the calendar and the clock are parameters that count
    (`Speedate.Counts`, `CountsTime`); floating-point products with a million are within one
    microsecond (`MulMillion.Good`).
  * `base64` 0.22 and `hex` 0.4: modelled after their documentation (Model/Bytes).
  * `url`, `uuid`, `regex`, case mapping of strings: parameters.
  * `ahash`: finite sets and maps.
* Integers of Rust are bounded where overflow matters (wrap-around and panics are modelled and
  lead to several of the findings below); `usize` lengths are unbounded naturals.

## What is modelled

`src/recursion_guard.rs`, `src/lookup_key.rs`, `src/errors/location.rs`,
`src/errors/line_error.rs`, `src/validators/validation_state.rs`, `union.rs`, `nullable.rs`,
`chain.rs`, `lax_or_strict.rs`, `function.rs` (+ `generator.rs: InternalValidator`),
`with_default.rs`, `custom_error.rs`, `list.rs`, `tuple.rs`, `set.rs`, `frozenset.rs`, `dict.rs`,
`model_fields.rs`, `typed_dict.rs`, `model.rs` (field part), `int.rs`, `float.rs`, `string.rs`
(constraints), `literal.rs`, `enum_.rs`, `arguments.rs`, `date.rs`, `datetime.rs`, `time.rs`,
`timedelta.rs`, scalar parts of `src/input/*` and `src/input/datetime.rs`,
`src/input/return_enums.rs`, `src/input/shared.rs`; `src/serializers/filter.rs` and the list, dict and
any serialisers that apply it; `src/serializers/type_serializers/union.rs`,
`src/serializers/fields.rs`, `computed_fields.rs` and the model serialiser; `src/validators/generator.rs` and
`src/serializers/type_serializers/generator.rs`; `src/definitions.rs` with the construction of references;
the truncation functions of `src/tools.rs`; JSON keys (`infer_json_key`, tuple and dict serialisers); the bytes modes of both `config.rs`; the error types, templates and
contexts of `src/errors/types.rs` and the message of `value_exception.rs`; `src/validators/url.rs` and `src/url.rs`; nested schemas with definition references (`src/validators/definitions.rs`, `build_validator`).

## What is not modelled

GC traversal, memory management, reference counting, threads and the GIL, PyO3 conversions,
performance (inlining, caching of strings), schema validation of the schemas themselves
(`self_schema`), Python stub code, `Display`/`Debug` output except where a property is about
it, URL parsing proper, regular expressions, `uuid`, `complex`, `decimal` arithmetic beyond
integer conversion.

## Per property

| id | title | modelled | how proved | status |
|----|----|----|----|----|
| C01 | Smart union returns the best match | `validate_smart` (union.rs) over a list of arbitrary choice functions | fold invariant; the winner is the lexicographic maximum, first among equals; witness for mixed/absent counts | partial |
| C02 | Left-to-right union returns the first success | `validate_left_to_right` | induction on members | proved |
| C03 | A failed union reports every member's errors | `MaybeErrors` | induction on members | proved |
| C04 | Tagged union dispatches on the tag only | `TaggedUnionValidator` | case analysis; non-interference of tables agreeing on the tag | proved |
| C05 | Recursion tracking is restored after every validation | `RecursionGuard` around arbitrary bodies | balance by induction on bodies; witness at the depth limit | partial |
| C06 | Cycle detection is exact | `RecursionStack` array/set representation | refinement to a list used as a set, invariant over all sequences of operations | partial |
| C07 | Validation of cyclic data terminates | guarded calls; `DefinitionRefValidator` in the engine (`Model/Engine.lean`): nested schemas, recursive definitions, input graphs with identities | the result of a run does not depend on the cut-off once references may be followed `limit + 1` deep: the guard's depth grows with every reference (agreement of two runs, by induction over schemas and fuel) | proved |
| C08 | Alias lookup takes the first alias that resolves | `LookupKey`, `LookupPath` on Python objects and JSON values | induction on paths | proved |
| C09 | Python and JSON lookups agree | the same | simulation relation between JSON values and the Python objects they become | proved |
| C10 | Model output has exactly the declared fields | main loops of model-fields, typed-dict | loop invariants over the visits of the fields | partial |
| C11 | fields_set is exactly what the input supplied | the same | the same | partial |
| C12 | No model error is lost or invented | the same | exact error lists | partial |
| C13 | Extra keys are handled by the configured policy only | the same | the same, one theorem per policy | proved |
| C14 | An extra key never replaces a validated field | the same | the same; witness for typed dicts | partial |
| C15 | Assignment is atomic and touches one field | `validate_assignment` of models | state before/after | partial |
| C16 | List validation is element-wise and order preserving | list loop, `validate_iter_to_vec` | induction over the input | proved |
| C17 | Length bounds are exact | length checks of list/set/dict/str/bytes | induction over the input | partial |
| C18 | fail_fast does not change the verdict | fail_fast of the same loops | induction over the input | proved |
| C19 | Partial validation forgives only the last element | `EnumerateLastPartial`, partial modes | induction over the input | partial |
| C20 | Dict validation is entry-wise | dict loop | induction over the input | proved |
| C21 | Set validation is by validated value | set loops | refinement to a set of values under Python equality | proved |
| C22 | Tuple items are validated by their own schema | tuple validator | segments of the item list; induction | partial |
| C23 | Integer constraints are exact for all sizes | int constraints incl. big ints | arithmetic | partial |
| C24 | String to integer parsing agrees with Python's int() | `str_as_int` and its helpers on bytes | language characterisation | partial |
| C25 | Float to integer conversion is exact | `float_as_int`, `decimal_as_int` | arithmetic on decoded doubles | proved |
| C26 | String constraints hold of the returned string | constrained str | case mapping, trimming and patterns are parameters | partial |
| C27 | Defaults are used exactly when documented | with-default | decision logic; non-termination witness | partial |
| C28 | Strict acceptance implies lax acceptance | all scalar and temporal conversions; the schema engine (`strictMeansLax` says which schemas) | case analysis for scalars; simulation of the strict run by the lax run, by induction over schemas and fuel | partial |
| C29 | Literal accepts exactly its members | literal lookup tables | refinement to membership up to Python equality | partial |
| C30 | Every definition reference resolves | definitions builder, schema construction over an arbitrary tree of definitions and references, `read` of a weak reference (Model/Definitions) | invariant of the builder over the construction; success iff names are defined exactly once and all references defined; then every reference in the tree and in the definitions reads its definition. Fails once the owner is dropped (witness). | partial |
| C31 | Error locations read outermost first | `Location` | round trip | proved |
| C32 | timedelta conversion round-trips | timedelta to/from duration | integer arithmetic | partial |
| C33 | Float timestamps keep their fractional part | `float_as_datetime` | integer arithmetic on microseconds | partial |
| C34 | Timezone offsets are in range and printed faithfully | `TzInfo` | integer arithmetic; decimal printing injective | partial |
| C35 | Argument binding agrees with Python calls | arguments validator | independent spec of Python call binding; invariant over the parameter list | partial |
| C36 | Generator bounds are enforced lazily and exactly | `ValidatorIterator` over Python and JSON iterators, caller as a loop (Model/Generator) | induction over the calls; the outcome of call n in closed form. Fails for `max_length` without item validator. | partial |
| C37 | Include/exclude select exactly the requested items | `FilterLogic::filter`, `merge_all_value`, list/dict/any serialisers | independent `select` on value trees; mutual induction | partial |
| C38 | Index filters refer to the indexed element | `map_negative_index(es)` | integer division | partial |
| C39 | Excluding more never outputs more | as C37 | sub-tree relation, induction | partial |
| C40 | Field serialisation honours exclude_none/unset/defaults | `GeneralFieldsSerializer`, `ComputedFields`, `ModelSerializer::get_inner_value` | each loop is a collection of what single items emit; induction | partial |
| C41 | to_json agrees with to_python(mode='json') | as C40, both `to_python` and `serde_serialize`; the JSON document is the list of entries written | the emissions agree item by item | partial |
| C42 | Union serialisation picks the first matching member | `union_serialize`, `tagged_union_serialize`; members are parameters that read and write the warnings | induction on the list of members | partial |
| C43 | Truncated error text stays within its limit | UTF-8 bytes, boundaries, string slices that panic off a boundary, the truncation (Model/Truncate) | characterisation of boundaries as ends of characters of the encoded text; then slices are encodings of a prefix and a suffix. Limit 0 panics. | partial |
| C44 | Bytes survive a JSON round trip | `BytesMode::bytes_to_string`, `serialize_bytes`, `ValBytesMode::deserialize_string`, base64 and hex codecs (Model/Bytes) | exactness of both decoders against an independent reading of digits; encoders are right inverses. | proved |
| C45 | Python exceptions in validators map to the documented outcome | `convert_err` | case analysis | proved |
| C46 | Timezone and now constraints are exact | `TzConstraint`, `NowConstraint` | case analysis on an ordered calendar parameter | proved |
| C47 | Multi-host URL splitting is lossless | `parse_multihost_url`, `parse_url` with byte positions and slices that may panic (Model/Url) | a text has exactly one reading as space, scheme, slashes, hosts, rest; each loop consumes one piece of it. | proved |
| C48 | Error messages show their own context | all error types, templates, `render_message`, `py_dict` contexts (Model/Messages, generated from types.rs) | templates parsed into characters and holes independently of the code; each sequential replacement fills one hole; table facts by cases. | partial |
| C49 | JSON object keys of distinct keys are distinct | `infer_json_key`, `KeyBuilder`, tuple `json_key`, dict serialisation to Python in JSON mode and to JSON (Model/Keys) | number of commas in a key is determined by its shape, so a joined text splits uniquely; mutual induction on keys. | partial |
| C50 | Exactness reflects the least exact step | `floor_exactness`, state of unions | invariants | partial |
| C51 | Options given at call time are scoped | `rebind_extra`, `strict_or`, `validate_by_*_or` | case analysis | proved |
| C52 | isinstance_python agrees with validate_python | `isinstance_python` | case analysis | proved |
| C53 | Nullable, chain and json-or-python compose their parts | nullable, chain | case analysis, induction on steps | proved |
| C54 | Recursive schema engine: outputs conform and re-validate | the engine (`Model/Engine.lean`); `Spec/Conforms.lean` says by the structure of the schema what its outputs are | postconditions of each combinator (`Lemmas/EnginePost*.lean`), mutual induction on schemas and fuel (`Lemmas/EngineSound.lean`); validating again (`Spec/Revalidate.lean`, `Lemmas/EngineFix.lean`): induction on schemas inside an induction on the nesting depth of the output and the rank of the definition | partial |
| C55 | Errors point at a real part of the input | the engine; `Leads` in `Spec/Conforms.lean` follows a location through the input | the same induction: each combinator prefixes the locations of its parts by the step it took | partial |
| C56 | A wrap function that only calls its handler is transparent | function-wrap, `InternalValidator` | state comparison | partial |
| C57 | Float bounds are exact and NaN lies within none | constrained float on decoded doubles | comparison as rationals | proved |
| C58 | Boolean words are exactly the documented ones | `str_as_bool` | language characterisation | proved |
| C59 | Enum schemas accept only members and their values | enum validator | case analysis | partial |
| C60 | JSON and Python inputs agree on scalars | scalar inputs, JSON and Python | simulation | partial |
| C61 | Strict mode does not convert | strict branches of scalar inputs | case analysis | partial |
| C62 | Dates and datetimes convert only at midnight | `date_as_datetime`, `datetime_as_date` | case analysis | proved |
| C63 | Times of day from numbers | `int_as_time`, `float_as_time` | integer arithmetic | proved |
| C64 | A lazily serialised generator gives the list of JSON mode | `SerializationIterator` and the JSON-mode loop (Model/Generator) | induction over the items. | proved |
| C65 | Tuple serialisation gives each item to its own serialiser | `for_each_tuple_item_and_serializer`, `to_python` of tuples (Model/SerTuple); tuples among the other schemas (Model/SerSchema) | both loops are a visit of the items with an independently given serialiser per position. | partial |
| C66 | URL schemas accept what fits and fill in only what is missing | both URL validators, `check_sub_defaults` with copy-on-write (Model/Url) | case analysis against a relation describing the three defaults; setters with laws. | partial |
| C67 | unicode_string decodes the host and nothing else | `unicode_url`, `decode_punycode`, `unicode_host` (Model/Url) | labels of a domain are unique; ranges computed by prefix lengths. | partial |
| C68 | A multi-host URL is faithful to its text | `PyMultiHostUrl::__str__`, `unicode_string`, `==`, hash (Model/Url) | prefix and suffix lengths; the text has a reading in the sense of C47. | partial |
| C69 | build keeps every part it is given | both `build` functions and `UrlHostParts` (Model/Url) | repeated unique splitting at the first mark. | partial |
| C70 | Dataclass arguments bind as in the standard library | the loop over fields of `dataclass-args` and its treatment of extra arguments (`Model/Dataclass.lean`) over the argument views of `Model/Arguments.lean`; `Spec/Dataclass.lean` gives the signature of the standard library's `__init__`, Python's binding comes from `Spec/Arguments.lean` | each iteration is one `Row` (value or errors); invariants for attributes, init-only values, used names; then rows against Python's binding. | partial |
| C71 | Assignment to a dataclass attribute | `validate_assignment` of both validators, reading attributes with the class as fallback, slots | case analysis; lookup in the rebuilt dict. | partial |
| C72 | Dataclass instances | `validate`, `validate_init`, `set_dict_call` with slots and `__post_init__` as a function on attributes; what the code asks of the input is a parameter (`Source`) | case analysis; revalidation by soundness and completeness of C70. | partial |
| C73 | Model instances | `ModelValidator::validate`, `validate_construct`, `validate_init`, `call_post_init`; the inner validator, the call of a class with its own `__init__` and `post_init` are parameters, and so is what the code asks of the input (`ModelSource`) | case analysis; witnesses for what is false. | partial |
| C74 | Both ways to JSON agree | `infer.rs` and the serialisers of scalars (also dates, durations, URLs, decimals, enums, literals), nullable, list, tuple, set, dict, plain functions, model, dataclass, typed dict and definitions, over opaque objects seen through a `World` (`Model/Infer.lean`, `Model/SerSchema.lean`); the depth of calls is a fuel | induction on the fuel and the schema: for each loop the two outcomes are related (`Lemmas/SerAgree.lean`); the fuel is removed by C75; seven witnesses for what is false. | partial |
| C75 | Serialisation comes to an end | the same, with the recursion guard of `Model/RecursionGuard.lean` in the state | two runs with different ends of the fuel are equal step by step, with the invariant that the depth of the guard is at least the number of open calls (`Lemmas/SerEnds.lean`). | proved |
| C76 | Plain data comes out as it is | the same; `Json.isOf` in `Spec/SerEngine.lean` says that an object stands for a document | induction on the document; the open keys belong to objects of higher documents, hence the guard never refuses for a cycle (`Lemmas/SerPlain.lean`). | proved |
| C77 | Cyclic data is refused | the same; `Part` and `Reaches` give the object graph | success at fuel n makes the part relation well-founded below the object (`Lemmas/SerCyclic.lean`). | proved |
| C78 | serialize_as_any uses the serialiser of each object | the same | computation with the guard lemmas: the model serialiser asks for inference a second time for the same object. | partial |
| C79 | Schema serialisation writes what the schema says | the same; `Spec/SerExact.lean` gives the documents of values by an inductive relation that knows neither guard nor state | induction on the relation; a value has one document and one depth, hence an open key of a definition belongs to a value of greater depth and the guard never refuses for a cycle (`Lemmas/SerExact.lean`). | proved |
| C80 | JSON round trip | both engines, from one schema (`Spec/RoundTrip.lean`); `Data` gives the values of a schema with their documents, knowing neither engine; `Equal` equality of values. The parser (jiter) is not modelled: a document is what it hands over; its own limit of nesting is outside | induction on `Data`: the validator takes the document and its output is `Data` with the same document (`Lemmas/TripTakes.lean`, `TripBack.lean`); two values with one document are equal (`TripEqual.lean`); writing by C79. A small world of objects shows the hypotheses can be met (`Spec/TripSample.lean`). Negations by concrete runs. | partial |
| C81 | Decimal constraints are exact | `DecimalValidator` on decimals as sign, coefficient and exponent; `normalize()`, `/`, `%` and comparisons of the `decimal` module with a context of any precision and exponent range; reading of inputs left out | the digits of the normal form against the value, by cases on the exponent; rounding half to even is exact on quotients with few digits, and near otherwise (`Lemmas/Decimal.lean`). Witnesses by computation. | partial |
| C82 | The JSON text stands for the serialised document | the writer of `ser.rs`, byte by byte: the table of escapes, slices of the string between escapes (panic = `none`), `Compound` with its state, the formatters of `serde_json`; RFC 8259 as an inductive grammar with values | the escape loop by induction over the characters left, with the part not yet written as a slice; the writer gives exactly a recursively defined layout; the layout is derived in the grammar; the grammar is unambiguous because a reader, proved to follow every derivation, is a function (`Lemmas/JsonParse.lean`, `Lemmas/JsonText.lean`). | partial |
| C83 | The reports of a ValidationError agree and survive pickling | `ValidationError` and `PyLineError`: `errors`, `json`, `str`, `from_exception_data`, `__reduce__`; `ErrorType` with the table of its 101 known variants and their fields, `new`, `py_dict`, `render_message`; dicts with their order | the table is checked row by row for all values of the fields; dict updates are idempotent, so that the context shown, given back to `ErrorType::new`, is the context shown again; extraction gives back every field that survives; then induction over the line errors (`Lemmas/Report.lean`). | partial |
| C84 | Custom serialisation functions are used when they should be, and hide what they replace | `FunctionPlainSerializer`, `FunctionWrapSerializer`, `SerializationCallable`, `SerializationInfo`, `on_error`, `WhenUsed`, `FormatSerializer`, `ToStringSerializer`, `CollectWarnings`; functions are trees of handler calls, the other serialisers arbitrary; plain functions also among the other schemas (Model/SerSchema) | case analysis over the call, with the arguments determined by a relation; induction over the programs of functions and over schemas (`Lemmas/SerFunction.lean`). | partial |
| C85 | An arguments-v3 schema binds a call as Python does, however the call is spelled | `ArgumentsV3Validator`: `build`, `validate`, `validate_from_mapping`, `validate_from_argskwargs`; validators of parameters arbitrary | invariant of the loop of `build`; what each parameter contributes to the output by induction over parameters; step-by-step equality with the model of `arguments` (C35) for ArgsKwargs (`Lemmas/ArgumentsV3.lean`, `ArgumentsV3Errors.lean`). | partial |
| C86 | A UUID schema accepts exactly the UUIDs of its version, however spelled, and what is written is read back | `UuidValidator` (`build`, `validate`, `get_uuid`, `create_py_uuid`) for the three kinds of input and `uuid_to_string`; a UUID is a number below 2^128 | relational spec of spelling and of version by bytes; base-16 and base-256 digits by induction (`Lemmas/Uuid.lean`). | partial |
| C87 | Complex numbers: what is accepted, and when the text written is read back | `ComplexValidator::validate`, the three `validate_complex` and `complex_to_str`; floats with signed zeros, infinities and NaN over an abstract type of magnitudes | `complex()` of CPython as a separate specification over strtod; case analysis (`Lemmas/Complex.lean`). | partial |
| C88 | Json[T] validates text as T validates the JSON in it, and writes with round_trip what it reads | `JsonValidator` (`build`, `validate`, `validate_json_bytes`, `map_json_err`), `SchemaValidator::validate_json`, `JsonSerializer`; inner validators and serialisers arbitrary | unfolding for the equivalence; induction on the depth of nesting for the round trip. | partial |
| C89 | validate_strings reads text as lax validate_python does, accepts nothing else, and says where it is wrong | `StringMapping` (`new_key`, `new_value`, `impl Input`, `impl ValidatedDict`), the entry points, and the validators of scalars, nullables, dicts, lists and model fields written once over the `Input` trait and run on both kinds of input | induction on the schema with the two inputs related by `toPy`; induction on the items for the loops. | partial |
| C90 | Dates, durations, URLs, enums, literals and dataclasses are written the same in every place, and what is of the wrong type is written as Any after one warning | the serialisers `datetime_etc.rs`, `timedelta.rs`, `url.rs`, `decimal.rs`, `literal.rs`, `enum_.rs`, `dataclass.rs` and `json_or_python.rs`, added to the engine of C74; reading attributes and texts from objects are parameters | case analysis per type, with `on_fallback_py`/`on_fallback_ser` as in C42; `Expected` and `IsNot` (Spec/SerTyped.lean) say which values are of the type. | partial |
| C91 | Building a serialiser ends in a serialiser or a SchemaError, and schemas that only matter for validation are serialised as what they yield | the builders in `other.rs` and `with_default.rs`, with the `unwrap` as an outcome | induction on the schema. | partial |
| C92 | A validated call calls the function once, with the validated arguments, and only if they are valid; class checks give the object itself | `call.rs`, `is_instance.rs`, `is_subclass.rs`, `callable.rs`; what Python is asked (`call`, `isinstance`, extraction of tuples and dicts) is a parameter; the calls made are part of the outcome | case analysis; `Binds` (Spec/CallClass.lean) says which call the validated arguments stand for. | proved |
| C93 | Reusing the validator or serialiser of a class does not change what a schema means | `get_prebuilt` with the extractors of `PrebuiltValidator` and `PrebuiltSerializer`, the recursion of `build_validator` and `CombinedSerializer::build`; classes are their `__dict__`s; what validators and serialisers do is an arbitrary algebra (for plain serialisation functions one law, which the model of C84 is proved to satisfy) | induction on the schema for one build, on the history of class definitions for what the classes hold. | partial |
| C94 | Bytes schemas accept exactly the inputs that stand for bytes whose number is within the limits | `bytes.rs`, `validate_bytes` of the four kinds of input, `EitherBytes::len`; decoding is that of C44 | case analysis on the input; `Stands` says which bytes an input stands for, with `Spells` of C44 for base64 and hexadecimal text. | partial |
| C95 | What an object is serialised as depends on its class, then its marks, then its bases, then isinstance | `ob_type.rs`: `is_type`, `ob_type_is_expected`, `get_type`, `lookup_by_ob_type`, `fallback_isinstance`, the marks, equality of `ObType`; an object is its class, the chain of `tp_base`, `isinstance` and its marks | `Cls.builtin`, `Cls.inherited` and `askedInOrder` say what each class means; induction on the chain of bases; soundness for objects whose `isinstance` knows their bases. | partial |
| C96 | A field's function is told the field's name and the validated values of the fields before it | `ValidationInfo::new` and the calls of the four function validators (`function.rs`) on top of the models of `model_fields.rs`, `typed_dict.rs`, `dataclass.rs`; left out: `config`, `context`, `mode`, functions that change `info.data` | Non-interference: validators that agree when told the field's name and fields before it give equal outcomes (congruence of each loop under the invariant that the dict so far holds names seen so far). Exactness: the visits of C10, split at the field, and `Dict.only` of the finished output. | partial |
| C97 | What assignment does through validator functions | `validate_assignment` of the function validators, of `InternalValidator` and `AssignmentValidatorCallable`, around `ModelValidator`/`DataclassValidator` (on a heap of objects) and between `ModelValidator` and `ModelFieldsValidator` (on dicts); wrap functions are trees of handler calls; left out: functions that change objects | Induction over the stack of functions and over the tree of handler calls, with atomicity of the class (C15, C71) as base case; reachability by successful assignments of the class gives what can become of an instance; non-interference for the name told. | partial |
| C98 | How many fields a validation reports as set | `fields_set_count`: the counters of `ModelFieldsValidator`, `TypedDictValidator`, `DataclassArgsValidator`, `ValidationState::add_fields_set` and what `UnionValidator::validate_smart` does with it; field validators are arbitrary but for how they change the count; left out: `Omit`, typed dicts in partial mode | Step lemmas for one field, induction over the fields with the accumulated count as invariant; the choice of the union by induction over its members (maximum, first among equals). | partial |
| C99 | Mutable defaults are not shared | `WithDefaultValidator::build` (`copy_default`) and `default_value` on a heap of objects (lists, tuples, instances); the rest of the program is an adversary that allocates, writes to every mutable object it can reach and takes references; `copy.deepcopy` is a relation (assumed: new mutable objects, same look) | Invariant of all runs: the program reaches no mutable part of the stored default, and the heap agrees with the original on what the default reaches; looks are compared by bisimulation. | partial |
| C100 | Unions do not depend on what was serialised before | `RecursionSafeCache::get_or_init`, `DefinitionRefSerializer::retry_with_lax_check` and the `retry_with_lax_check` of the other serialisers; state: the cache and flag of every reference, one thread | The runs as a relation; invariants of the caches: true entries are reachable; after an answer no, the references searched form a set closed under reference without true leaf; ranks for definitions that are not recursive. | partial |
| C101 | Error locations do not depend on earlier validations | `get_name` of references (`DefinitionRef::get_or_init_name`, `LazyName`, `RecursionSafeCache`) and lists; other names are fixed when the validator is built and are constants; state: cached names of definitions and lists and the recursion flags, one thread | The runs as a relation; one invariant of the caches (all cached names are names) used for abbreviated names and, with ranks, for full names. | partial |
| C102 | Threads that share a serialiser do not disturb each other's answers | `RecursionSafeCache::get_or_init` as steps of threads: load of the cache, `compare_exchange` of the flag, second load, store, reset, in any order (sequentially consistent); definitions and unions as in C100 | Invariants of interleaved steps: the flags set are those held by threads, without repetition; a reference being computed has no cached answer; what a thread asks is reached from what it was started with. A run for the counterexample. | partial |
| C103 | Settings come from the schema, else from the nearest configuration | `schema_or_config`, `is_strict`, `ExtraBehavior::from_schema_or_config`, `get_as` and the `config` passed on by `build_validator` and `CombinedSerializer::build`, for seven settings of all shapes; left out: prebuilt validators of classes, settings read in the same ways | Mutual induction over schemas and lists of schemas, with the configuration in force read off the schemas around a schema; witnesses for the four failures. | partial |
| C104 | The cause of a ValidationError is the exceptions of the user's functions | `from_val_error` for line errors and `maybe_add_cause` on Python 3.11 and later, with exceptions as objects whose notes persist; left out: the backport for earlier versions | Induction over the line errors with the notes as state; the note's text is compared with the location joined by dots; two witnesses against the last sentence, one of them for any number of validations. | partial |
| C105 | Lax mode converts exactly what the conversion table says | `validate_bool`, `validate_int`, `validate_str`, `validate_float` and `validate_bytes` of Python objects (`Model/Inputs.lean`) | Equivalence of the functions with inductive tables, by cases over the classes, with float and decimal conversions by their values as rational numbers. | proved |
| C106 | Dates and times are read exactly from what the conversion table says | `validate_date`, `validate_time`, `validate_datetime`, `validate_timedelta` of Python objects, `duration_as_pytimedelta`, `pytimedelta_subclass_as_duration`, `datetime_from_date` (`Model/DateTime.lean`) | Equivalence of the functions with inductive tables, by cases over the classes; lengths by linear arithmetic with division. | proved |
| C107 | A tagged union serialises a value with the choice its tag validates with | `TaggedUnionSerializer::build`, `get_discriminator_value`, `tagged_union_serialize`; `Discriminator`; the lookup of `TaggedUnionValidator` (`Model/TagLookup.lean`, on `Model/SerUnion.lean` and `Model/Literal.lean`) | The table is characterised by induction over the keys; agreement with the literal lookup from its soundness. Full claim false, with witnesses. | partial |
| C108 | An error is made from a name and a context exactly if the context has its fields | `field_from_context`, `ErrorType::new`, `Number`, `render_message`, `ValidationErrorSerializer` (`Model/Report.lean`) | Equivalence with the inductive table `Reads`, by cases; induction over fields and over errors for the first failure. | proved |
| C109 | A string schema with a pattern means what it reads as | `StrValidator::build`, `Pattern::compile`, `StrConstrainedValidator::validate` (`Model/Patterns.lean`) | Equivalence with the inductive tables `Means` and `Outcome`: soundness by cases, uniqueness of the outcome. | proved |
| C110 | A lazily serialised generator warns of what has been serialised so far | `SerializationIterator`, `ExtraOwned`, `CollectWarnings` (`Model/LazyWarn.lean`) | Invariant of the state after `n` calls, by induction over calls and over the source. | proved |
| C111 | Python mode asks the property of a computed field once, JSON mode twice | `ComputedFields`, `ComputedField`, `ComputedFieldSerializer` with properties that have effects (`Model/ComputedCalls.lean`) | Equivalence with the inductive relation `Writes`, by induction over the fields; for properties without effects, refinement to the model of C40. | proved |
| C112 | Which objects a model is read from, and how | `validate_model_fields`, `validate_dict`, `from_attributes_applicable`, `GenericPyMapping` and the loops of `ModelFieldsValidator` (`Model/FromAttr.lean`, `Model/Fields.lean`) | Case analysis to the table `ReadAs`; induction over the fields that the loop over fields does not use the extra behaviour. | proved |
| C113 | What is wrong in a schema is reported as a SchemaError with the way to it | `build_validator`, `build_specific_validator`, `get_as_req` and the labels of fields and parameters (`Model/BuildErr.lean`) | Mutual induction over schemas and steps; equivalence with the inductive relations `Sound` and `FirstWrong`. | proved |
| C114 | A set is serialised to the set of its serialised items, or the list in JSON mode | `SetSerializer`, `FrozenSetSerializer` (`Model/SerSet.lean`) | Induction over the items, with the invariant that the set built so far has no two equal items. | partial |
| C115 | exclude_defaults leaves out what validation puts back | `exclude_default`, `WithDefaultSerializer`, `CombinedSerializer::_build` as far as it decides which default is compared, `default_value` of validators (`Model/ExclDefault.lean`) | Induction over the schema for which default is compared; induction over the fields, with the lookups of the names left, for the round trip. | partial |
| C116 | Which configuration decides how values are written | `SerializationConfig`, the modes and their names, `build` of the serialisers as far as they pass on the configuration, `SchemaSerializer::py_new`, `to_json` (`Model/SerConfig.lean`) | Induction over the position, in both directions, with a relation that follows the schema and the value to the configuration that governs; mutual induction over the schema for when a serialiser is built. | proved |
| C117 | JSON objects in which a key occurs twice | `get_item` and `iterate` of JSON objects, `ValidateToDict`, the loops of `ModelFieldsValidator`, `validate_iter` (`Model/DupKeys.lean`) | Inductions over the pairs: lookups after setting items, setting items commutes with renaming keys apart and with filters by key; the loops in closed form. | partial |
| C118 | Literals and enums given as text | `impl Input for str`, `StringMapping::String`, `LiteralLookup::validate`, `EnumValidator::validate` on them (`Model/LitText.lean`, on `Model/Literal.lean`) | The invariants of the lookup tables of C29; the search differs from that in Python in the step for bools only. | partial |
| C119 | Which member of a union text is given to | the matches that `JsonValue::Str`, `str` and `StringMapping::String` give, the validators of scalars, and `validate_smart` of C01 (`Model/TextUnion.lean`, on `Model/Union.lean`) | The theorem of C01 on the best match, after showing that members are tried independently; then case distinctions by type and place. | partial |
| C120 | What is raised when serialising fails | `errors.rs`, `to_json_bytes`, the `json` serialiser and dict keys, as the two ways an error takes (`Model/SerErr.lean`) | Induction on the schemas between the root and the place, for the three ways at once; the number of times an error is turned into text is the invariant. | partial |
| C121 | The option warnings decides only what is done with warnings | `CollectWarnings`, its writers and readers, and the copies handlers of `wrap` functions have (`Model/WarnMode.lean`) | Induction on programs, mutual with that on the functions they call. | partial |

What is missing from each `partial` claim is in the `note` of `MANIFEST.json`.

## Findings: where the code departs from the property

Proved in the model, with the theorem that shows it in the `Props` file of the area:

1. Recursion guard: refusing at the depth limit leaves the key (and on some platforms the depth)
   behind.
2. Smart union: state is not restored after an omit/use-default/internal error; the winner is not
   the best choice when only some members report a fields-set count.
3. Left-to-right union: the exactness of failed choices leaks into the result.
4. Typed dict: a field whose value cannot be read is dropped without an error.
5. With-default: `validate_default` with `on_error='default'` and an invalid default recurses
   forever; `PydanticUseDefault` without a default panics.
6. Tuple: error indices after variadic items are one too small; defaults bypass `max_length`;
   a spurious `too_short`; the iteration error has a 1-based index.
7. Strings: length and pattern are checked before case mapping.
8. Ints: `multiple_of=0` and `i64::MIN % -1` panic.
9. Literals: big ints are rejected when a small int is listed; `Literal[1]` accepts `True`.
10. `str` to `int`: `"0-1"`, `"+0-5.0"`, `"0__1"` are accepted.
11. `float` to `int`: -2^63 is rejected.
12. timedelta from an int: the number of days wraps at 2^32.
13. Negative float timestamps with a fraction move away from the instant.
14. `TzInfo(-1e20)` is accepted in release builds.
15. The int schema returns the unchecked value of a plain enum member in lax mode.
16. Wrap functions lose `by_alias`, `by_name`, partial mode and the fields-set count.
17. An item rejected without line errors is dropped from lists, and shifts call arguments.
18. `max_length` of lists pulls two items more than allowed.
19. Dict partial mode reports errors of the last key.
20. `fields_set` contains a defaulted field when an extra has its name.
21. Assignment with extras that collide with fields loses one of them.
22. Typed dict extras overwrite a validated field.
23. An omit raised by the validator of extras escapes; an iteration error hides field errors.
24. Enum with JSON input: the class is called with `None`.
25. Strict float takes `__float__` of a str subclass where lax parses its text.
26. A JSON int too large for a double becomes infinity, the Python int is rejected.
27. A Python bool is a timedelta in lax mode, a JSON bool is not.
28. Call arguments: with an alias a surplus keyword argument overwrites a parameter or doubles it;
    a failing default hides the errors collected; unpacked keyword arguments overwrite a parameter.
29. Serialisation filters: an index out of range wraps around and removes another item; a nested
    exclude or an include at call time brings back an item that the schema excludes; a nested entry
    for an item overrides `__all__: ...`; two keys for the same item: the last one wins.
30. Union serialisation: `float` (and `dict`, `set`, `frozenset`, `generator`) do not override
    `retry_with_lax_check`, so a float subclass in `Union[float, str]` never gets the lax pass and is
    inferred with warnings; a tagged union inside a strict check still tries its member laxly; warnings
    recorded during an attempt that is given up stay.
31. Field serialisation: `to_json` ignores `extras_schema` serialisers, tests the raw instead of the
    serialised value of a computed field for `exclude_none`, writes repeated keys when aliases clash, and
    converts integer keys of extras; in a union the count of required fields takes `exclude` into account
    but not `include`.
32. A generator schema without item validator does not enforce `max_length`.
33. Truncating to limit 0 panics (no caller does).
34. Definition references are weak: a generator iterator or a wrap handler that outlives its
    `SchemaValidator` panics at the first `definition-ref`.
35. Error messages are made by replacing placeholders one after the other, so a tag `{expected_tags}` sent
    by a user, or a value of a custom error that mentions another placeholder, is itself replaced.
36. JSON keys: tuples are joined by commas, so `("a,b", "c")` and `("a", "b,c")` (or `()` and `("",)`, or nested
    tuples) are the same key: in JSON mode one entry is lost, in JSON text the key is repeated. The filter of a tuple
    schema applies to keys too.
37. A variadic tuple with too few items is serialised with the serialisers after the variadic one shifted, also in
    strict mode.
38. `default_port` of a multi-host URL schema is given to the last host only. (Also, since the url crate drops an
    explicit port equal to the one its scheme implies, `https://x:443` with `default_port=8000` becomes port 8000; this
    depends on the library and is not proved.)
39. `unicode_string` of a URL with credentials replaces the wrong range: `http://u@xn--4ca.de/` is shown as
    `http://ä.dede/`. `==` of multi-host URLs is based on it.
40. `MultiHostUrl` compares unicode forms but hashes its fields: `MultiHostUrl('foo://a,b/p')` equals
    `MultiHostUrl(Url('foo://a,b/p'))` and has another hash and other hosts.
41. `build` escapes nothing: a user name `a/b` moves the host into the path.
42. `UrlHostParts::is_empty` looks at the host twice and never at the user name: a host given by a user name alone is
    refused with a message listing 'username' as sufficient.
43. Definition references take the recursion guard for Python objects only: JSON text validated with a definition that
    refers to itself on the same input (`nullable(definition-ref)`) recurses without end, where the same Python value
    gives a `recursion_loop` error.
44. Validating an output again may change it: a smart union of typed dicts may take the output of one member for
    another member (defaults count as set fields the second time), a left-to-right union of `int` and `float` turns
    `'1e3'` into `1000.0` and that into `1000`, defaults are not validated.
45. A positional dataclass field with `init=False` uses up a positional place: with `a = field(init=False)` before `b`,
    `D('1')` loses the argument (or reports `b` missing), where the standard library gives it to `b`.
46. With `extra='allow'` a dataclass argument named like an `init=False` field, or like a field with an alias, becomes
    the value of that field without being validated.
47. `PydanticOmit` raised by a dataclass field's validator ends the validation of the dataclass; in models and typed
    dicts the field is left out.
48. Assignment to a dataclass attribute rebuilds `__dict__` from the declared fields: extra attributes are lost, and
    while any field is unset every assignment raises `AttributeError`.
49. Revalidating a dataclass instance: impossible if a field is init-only without default, or if a field has
    `init=False` and extra ones are forbidden; with `extra='ignore'` an `init=False` field goes back to its default;
    extra attributes are lost.
50. `__init__` of a dataclass with slots and `extra='allow'` that is given an extra argument raises `AttributeError`
    after having set the slots before it.
51. Revalidating a model instance looks its attributes up by alias: with `revalidate_instances='always'` a class with an
    aliased field rejects its own instances with `missing` (unless names are looked up too). The set of fields of a root
    model becomes `{'root'}`.
52. An `__init__` of a model whose `post_init` fails leaves the new attributes on the instance.
53. A tagged union with `from_attributes=False` refuses the model instances it makes itself (`dict_type`).
54. With `from_attributes`, an attribute error of an `(object, kwargs)` pair reports the object, not the pair that was
    the input at that location.
55. With `from_attributes`, an object that is a Mapping is read by its attributes in strict mode but by its items in lax
    mode, so strict acceptance does not mean the same lax value (`mapping_attributes_strict_not_lax`).
56. A comment in `src/validators/model.rs:132` says strict mode asks for an exact instance; no code does: dicts and
    instances of subclasses are accepted in strict mode too.
57. `infer_json_key` and the `json_key` of definitions take no recursion guard: a `fallback` that returns its argument
    (or alternates between objects), or definitions that refer to each other, overflow the stack when the value is a
    dict key.
58. With `serialize_as_any=True` every model met by inference (a value of type `Any`, an item of an untyped list, an
    argument of `pydantic_core.to_json`) raises "Circular reference detected" in `to_json` and is returned unserialised
    by `to_python`: the model serialiser hands it to inference again, whose guard is already held
    (`as_any_fails_on_inferred_models`).
59. `to_json` and `to_python(mode='json')` differ: `include`/`exclude` reach the items of sets only in JSON; with
    `ser_json_inf_nan='strings'` only JSON has texts; a `float` field leaves NaN alone in `to_python`; a bytes pattern is
    returned as bytes; `serialize_unknown` cuts cycles only in JSON; a `Decimal` in a `float` field is a number without
    a warning in JSON, a text with a warning in Python; `serialize_as_any` on a value that is not a dict warns only in
    JSON (`json_ways_differ_on_*`).
60. `ObTypeLookup::is_type` compares with the Path class for patterns (`src/serializers/ob_type.rs:158`).
61. After a refusal for depth the key stays in the guard, so that in mode `python` a shared object seen later may be
    returned unserialised.
62. JSON round trips fail (C80): with default arguments a field with an alias is written under its name but looked up by
    its alias; with `exclude_none` a field that is `None` but has another default comes back as that default; an instance
    of a root model of `None` in an optional field comes back as `None`; `nan` and the infinities are written as `null`,
    which a `float` field refuses.
63. Decimal constraints: `max_digits` and `decimal_places` accept what either the decimal as written or its `normalize()`d
    form satisfies, but `normalize()` rounds to the precision of the context, so `1.00000000000000000000000000001` passes
    `max_digits=5, decimal_places=2`; `Decimal('0')` is refused where `max_digits == decimal_places` though `0.0` is
    accepted; `multiple_of` divides with 28 digits, so `1000000000000000000000000000.5` passes `multiple_of=1`, and
    from 1E+28 on (or for infinities, or `multiple_of=0`) `decimal.InvalidOperation` or `DivisionByZero` escapes.
64. JSON text: `serialize_seq(Some(0))` writes `[]` at once, and the items that follow anyway are still written, so an
    iterator whose `__len__` returns 0 (`generator.rs:117`) gives `[],1,2]`. NaN and infinities, where `inf_nan` does not
    turn them into null or strings, are written as `NaN`, `Infinity`, `-Infinity`, which RFC 8259 does not allow.
65. Reports: `json()` writes a `url` for custom errors, `errors()` and `str()` do not (`validation_exception.rs:660-662` against
    `513-516`). `hide_input` only concerns `str()`. Custom errors cannot be unpickled (`KeyError`), and one with the name
    of a known error silently becomes that error, with its message. A limit such as `gt=10**30` becomes a double when
    unpickled, so that the message changes; one too large for a double raises `TypeError`. A title that is not a string
    makes `str()` panic. Entries `error_type` and `message_template` of a custom context are used in the message but not shown.
66. Function serialisers: a function with `when_used='json'` or `'unless-none'` that is not used hands the value to the
    schema without the `include` and `exclude` of the call (`function.rs:225-227` and `267-270`), so in mode `python` fields that were
    excluded are written. `PydanticSerializationUnexpectedValue` raised by a function writes the value by inference, with
    a warning only. A handler starts with the warnings of the fields before it and issues them with each call; with
    `warnings='error'` it raises for them. `exclude={-1}` makes a handler called with an index raise `ValueError`. The
    exception of a `__str__` comes through `to-string` unwrapped in `to_python`, wrapped in `to_json`.
67. `arguments-v3`: `build` takes `*args` and `**kwargs` for required parameters, so `def f(a=1, *args)` is refused with
    "Required parameter 'args' follows parameter with default" (`arguments_v3.rs:180-181`). In a mapping, an entry of
    `**kwargs` with the name of a keyword-only parameter overwrites that parameter's validated value; with the name of a
    positional one the output is a call that raises TypeError. A generator given for `*args` that raises makes `unwrap` panic
    (`arguments_v3.rs:283`). `field_name` is not set for validators of parameters, unlike in `arguments`.
68. `uuid`: an object made from text or bytes has `is_safe = SafeUUID.safe`, where Python's own `UUID(...)` says `unknown`
    (`uuid.rs:233-238`), so a UUID that goes through JSON claims more than it did. A `version` of 0, 2 or above 8 in a core schema
    reaches `unreachable!()` (`uuid.rs:66`) and panics instead of raising `SchemaError`.
69. `complex`: in JSON mode `complex(1, -0.0)` is written `1+-0j` and `complex(1, nan)` is written `1NaNj`
    (`complex.rs:79-86`); neither Python nor this library reads either. The sign of a real part of `-0.0` is dropped. In lax mode
    a Python int of more than 64 bits panics (`input_python.rs:661`), where the same number in JSON is an ordinary
    `complex_type` error. `strict=True` given to the call is ignored (`validators/complex.rs:48`).
70. `Json[T]`: `to_python(round_trip=True)` writes the JSON text with `mode` still `python` (`type_serializers/json.rs:57`), so
    serialisation functions of T with `when_used='json'` are skipped in a text that is JSON, and differ from what `to_json`
    puts there. Without `round_trip`, a `Json[T]` key is written by inference, ignoring T's serialiser (`json.rs:73`), although
    values are written by it.
71. `validate_strings`: a value inside a `dict` schema that is neither `str` nor `dict` (or a key that is no `str`) gives a single
    `string_type` error with an empty location, which also hides every other error of the dict (`dict.rs:116`, `item_result?`);
    in a model whose extras are not ignored it even hides the errors of the other fields (`model_fields.rs:274`, `??` at 358),
    while in a model that ignores extras the same value is reported under its field (`model_fields.rs:184-191`).
    `strict=True` is ignored for every type except dates and datetimes, whose validators use it to disable the fallback from a
    datetime to a date and back (`date.rs:52`, `datetime.rs:72`).
72. `SchemaSerializer({'type': 'chain', 'steps': []})` panics (`other.rs:25-26`, `.last().unwrap()`), wherever that schema is what is
    serialised; `SchemaValidator` refuses it with a `SchemaError` (`chain.rs:37`).
73. `json-or-python` chooses the serialiser by function, not by mode (`json_or_python.rs:51-76`): `to_python(mode='json')` uses the Python
    schema, `to_json` and keys the JSON schema. A `timedelta` field accepts anything without warning in mode `python`
    (`timedelta.rs:51`), and a literal never warns outside unions (`literal.rs:81`), unlike all other scalars.
74. A class whose schema has a `before` function (or anything but an `after` or `wrap` function) outside its model schema: when this schema
    is built again after the class is complete, the model inside is replaced by the validator of the whole class, so the function is
    called twice (`prebuilt.rs:20-25` excludes only `FunctionWrap` and `FunctionAfter`).
75. A model schema for a complete class is ignored: `SchemaValidator` takes the validator of the class, even if the schema differs
    (`mod.rs:569`).
76. `call` schemas: an exception of the function, also a `ValueError`, leaves validation as it is and is never turned into a validation error
    (`call.rs:87`), unlike those of validation functions (C45).
77. The limits of a bytes schema ask `len(x)` of an instance of a subclass of `bytes` (`return_enums.rs:561-566`), which it may define to give any
    number: three bytes pass `max_length=2` if `__len__` says 0.
78. A class that is serialised by a function (`model_serializer`), used in a field with another function that is not always used, or with a wrap
    function: where the schema asks for the fields of the model, the function of the class is called instead, once the class is complete.
    Only a wrap function of the class is not (`prebuilt.rs:21`).
79. `ob_type_is_expected` compares `ObType::Pattern` with the class of paths (`ob_type.rs:158`): asked whether a path is a pattern it would say yes.
    No serialiser asks (`is_type` is only called for None, Int, Bool, Float, Decimal, Str and Uuid), so it cannot be observed.
80. An enum is told by its metaclass being exactly that of `Enum` (`ob_type.rs:267-276`).  A member of an enum with a mixin and a derived metaclass is
    inferred as an instance of the mixin: the mixin's value is written, in Python mode as well as in JSON, not the member's `value`.
81. An iterator derived from a known class is inferred as a generator (the mark is looked for before the bases, `ob_type.rs:242-249`), whereas the
    serialiser of the class takes it for its own.
82. A default that is checked by a function (`validate_default`) is made without the field's name in models and typed dicts: `info.field_name` is that of the
    field around the model, or the one in the function's schema (`model_fields.rs:220-235`, `typed_dict.rs:241-265`); dataclasses set it. The
    validators of extra items are told neither the model's fields nor a name of theirs, but what the validator around the model was told
    (`model_fields.rs:177-248` ends before the loop over extras); a dataclass tells its fields there (`dataclass.rs:321-334`).
83. Behind the handler of a wrap function `info.field_name` is lost (`generator.rs:317`, `field_name: None`), unless the schema of the inner function
    carries one; on assignment the handler sets it (`generator.rs:278`).
84. A function around a class with `validate_assignment` that raises after the class has accepted the value does not undo it: the assignment raises
    a `ValidationError`, but the instance holds the new value (`model.rs:228-239` writes before `function.rs:210-223` calls the function).
    `assignment_not_atomic` is such a run; model validators in mode `after` are of this kind.
85. A before function between a class and its fields is given a dict with the new value on assignment, but what it does to that value is ignored:
    the field validates the value as given (`model.rs:217-219`, `model_fields.rs:444-455`). What it does to other entries goes into the instance
    without validation (`before_bypasses_validation`).
86. A dataclass field with `init=False` and a default counts as set (`dataclass.rs:184`), though no input gave it: in a smart union a dataclass with
    such fields beats one that was given as many values (`noinit_default_counted`).
87. Typed dicts and dataclasses add their count before they know whether they fail (`typed_dict.rs:272`, `dataclass.rs:360`; models after,
    `model_fields.rs:369`), and a left-to-right union does not reset it (`union.rs:184-200`): within a smart union the fields of a member that
    failed are counted for the one that succeeded (`failed_member_counted`).
88. Defaults are copied only if hashing them fails (`with_default.rs:133-137`). Instances of ordinary classes are hashed by identity, so a mutable
    instance given as default is shared by all validations, and a change made through one result shows in the next (`instance_default_shared`).
89. A default factory that takes the validated data is called with an empty tuple where there is no such data (`with_default.rs:58`: `({},)` is a
    Rust unit, not a dict), e.g. for a default outside models, typed dicts and dataclasses (`factory_given_tuple`).
90. `RecursionSafeCache` caches answers that were computed under the assumption that the enclosing references answer `false`
    (`definitions.rs:223-241`). Whether a union in a recursive schema tries its members a second time therefore depends on which part of the
    schema was used first; even `repr` of the serialiser (`type_serializers/definitions.rs:55-62`) can change how later values are serialised:
    with the fields of the model, or with warnings and all fields of the subclass (`history_matters`).
91. The name of a definition within a cycle is cached with dots for the definition the cycle was entered by (`definitions.rs:223-241`), so names,
    and the locations of errors in unions, depend on which error was reported first: with `a = list[b]`, `b = list[a]` the name of `a` is
    `list[list[...]]`, or `list[...]` if that of `b` was asked for before (`name_history`).
92. `RecursionSafeCache` takes the computation of another thread for recursion (`definitions.rs:231-237`). The module is declared to be safe without the
    global lock (`lib.rs:109`), but when two threads use a serialiser for the first time at the same time, the one that finds the flag set is told
    no and may cache what follows from that for good, also in schemas without recursion (`threads_spoil`).
93. The serialiser of a typed dict ignores the typed dict's `config` and uses that of the model around it (`type_serializers/typed_dict.rs:20-45`; its
    validator does the opposite, `validators/typed_dict.rs:53-55`): with `extra_fields_behavior='allow'` in its own configuration unknown fields are
    accepted and then left out silently when serialising (`typed_dict_settings_differ`).
94. `extra_behavior: None` in a schema hides the configuration's `extra_fields_behavior` (`build_tools.rs:190-196`, `none_hides_config`).
95. A definition is built with the configuration around the `definitions` schema, not with that of the models that refer to it, so that e.g.
    `str_strip_whitespace` of a model does not reach texts it refers to by reference (`validators/definitions.rs:34`, `definition_changes_settings`).
96. The serialiser of a model reads `extra_behavior` from the model's schema, that of its fields from the fields' schema (`type_serializers/model.rs:35`
    and `113`); if only the latter allows unknown fields the fields' serialiser gets something it does not expect and falls back to inference with a
    warning (`model_and_fields_differ`).
97. `TzInfo` equals other timezones up to half a second (`input/datetime.rs:606-616`) and hashes its own seconds (600-604), so equality is not
    transitive and equal objects may have different hashes (`tz_eq_iff`, `tz_eq_not_transitive`).
98. With `validation_error_cause` an exception raised behind a wrap function gets a note for the `ValidationError` of the handler and another for the
    final one: the first names a location that no error has (`validators/function.rs:369-377`, `two_notes`).
99. `add_note` changes the user's exception object (`errors/validation_exception.rs:143`): a function that raises one object again collects a note
    for every error it ever caused (`notes_pile_up`).
100. The serialiser of a tagged union finds its choice by `str()` of the choice key and of the tag, the validator by equality. With the keys `1` and `'1'` a value tagged `1` is serialised by the choice for `'1'`; a tag that equals a key but prints differently (a member of a `str` enum, `True` for `1`) is not found, and all choices are tried in order without a warning. A discriminator function that returns `None` makes validation fail with `union_tag_not_found`, and makes serialisation take the choice `'None'`; one that raises is ignored in serialisation (`int_and_text_keys_collide`, `equal_tag_not_found`, `function_none_and_raise`).
101. **A pattern given as a member of an enum of texts means its printed form to Rust's engine** (`PC.Pat.enum_pattern`): `extract_pattern_str` takes `str()` of the object, so a member printed as `E.A` with value `a` is the pattern `E.A` for `rust-regex` but `a` for `python-re`, and the errors show `E.A` in both cases.
102. **A misspelt regex engine goes unnoticed** without a pattern or with a compiled one (`PC.Pat.wrong_engine_unnoticed`).
103. **A text with lone surrogates passes a plain string schema but no constrained one** (`PC.Pat.trivial_bound_refuses`): `min_length` 0, which every text meets, makes the difference.
104. **The warnings of a lazily serialised generator pile up** (`PC.LazyWarn.second_item_lost`): `ExtraOwned` keeps the collected warnings for the life of the iterator and `final_check` does not clear them, so every later item warns again of earlier ones, and of whatever was warned of before the generator was reached; with `warnings='error'` every item after the first wrong one raises, although nothing is wrong with it.
105. **JSON mode asks the property of a computed field twice** (`PC.Computed.null_despite_exclude_none`): `serde_serialize` evaluates it for `exclude_none` (even if that is not set), and `ComputedFieldSerializer` again for its value; a property that is slow is slow twice, and one that answers `None` the second time is written as `null` despite `exclude_none`.
106. **Strict mode reads a mapping by its attributes** (`PC.FromAttr.strict_reads_mapping_by_attributes`): with `from_attributes`, a mapping of a user's class is read by its items in lax mode; strict mode does not refuse it but reads its attributes instead. And `extra='forbid'` does not forbid anything of an object read by its attributes (`forbid_not_enforced`).
107. **A schema that is no schema is not a SchemaError** (`PC.BuildErr.no_type_alone_and_inside`): `SchemaValidator` of a dict without type raises `KeyError`, of anything that is no dict `TypeError`; the same inside another schema is a `SchemaError`.
108. **A set of models cannot be serialised in Python mode** (`PC.SerSet.set_of_models_raises`): its items become dicts, and building the set of them raises `TypeError: unhashable type: 'dict'`; JSON mode gives a list. Items that are serialised alike are merged in Python mode and not in JSON mode (`items_merged`).
109. **A default inside a validator function is left out by `exclude_defaults` but not put back** (`PC.ExclDefault.inside_function_lost`): the serialiser of a before or after function is that of the schema inside, whose default it compares with; the validator of the function has no default, so the field is missing when the dump is validated. Conversely, defaults behind references and of schemas with a serialiser of their own (a field serialiser on a field with default) are never left out (`default_written`).
110. **The configuration in the schema of a typed dict is not used in serialisation** (`PC.SerConfig.typed_dict_config_lost`; C103 has the same for its settings): the validator of a typed dict takes the `config` of its schema and ignores the one around it; the serialiser does the opposite. So `ser_json_inf_nan='strings'` in a typed dict has no effect, and the `ser_json_*` settings of a model do reach into the typed dicts in its fields, whose validation they do not reach. Neither do `serialize_by_alias` and the `extra_behavior` and `typed_dict_total` of that `config`, read at the same place.

111. **Two fields of one instance may write NaN differently** (`PC.SerConfig.any_field_not_in_scope`, `own_config_does_not_govern`): a float field follows the configuration of its model, a field of type `any` in the same model that of the serialiser at the root. The same instance inside a list of `any` writes both as the model says (`same_instance_elsewhere`). `to_json` without arguments writes NaN as a constant, a `SchemaSerializer` without a configuration as null (`defaults_differ`).

112. **The message for a wrong serialisation mode ends in "or"** (`PC.SerConfig.wrong_mode_unnoticed`): "expected utf8 or base64 or hex or ". A wrong mode in the configuration of a model is noticed only if a field has the type the mode is for; in the configuration of a serialiser always.
113. **Values that JSON replaces are validated** (`PC.DupKeys.replaced_value_refused`, `model_not_as_python`): `{"a": 99, "a": 1}` is refused by a dict schema whose values must be below ten, though every reader takes it for `{"a": 1}`, and the error is at `a`, where the value that counts is fine. So it is for extra items of models that have a schema; forbidden extra items are reported once for each time they occur. Fields of models are looked up from the end, so a replaced value of a field is never looked at. A generator schema goes through repeated keys (`keys_same_iff`).

114. **Keys that become equal may leave another value than in Python** (`PC.DupKeys.merged_keys_differ`): `{"1": 1, "01": 2, "1": 3}` for a dict of ints by int gives `{1: 3}` from JSON and `{1: 2}` from the Python dict read of the same text.
115. **A listed key is taken for a bool** (`PC.Lit.listed_text_taken_for_bool`, `text_bool`): the text of a JSON object's key, and all text in `validate_strings`, is read as a bool although `validate_bool(true)` asks for strictness (`input_json.rs:436`, `input_string.rs:129`), and a literal asks that first. `Literal['yes', True]` so gives `True` for the key `yes`, and `Literal[True]` accepts `1`, `t` or `ON`.

116. **Literals of ints cannot be keys of JSON objects** (`PC.Lit.text_int_refused`, `int_enum_text`): an int read from text is no exact match, so `Literal[1]` refuses the key `1` that `to_json` writes for it, and `"1"` in `validate_strings`; an `IntEnum` takes it, and `01` as well, in strict mode too.
117. **A union reads keys of JSON objects otherwise than values** (`PC.TextUnion.date_as_key`): text as a value is a strict match for a date, time, duration or decimal, as a key a lax one (`input_json.rs:282` against 489), but for str it is strict in both. So `"2020-01-01"` is a date in `list[date | str]` and a str as key in `dict[date | str, int]`, and a dict with date keys written by `to_json` comes back with str keys.

118. **Smart mode is left-to-right in `validate_strings`** (`PC.TextUnion.strings_first`, `int_in_strings`): every match is strict there, so `int | str` gives `1` for the text `1` where JSON gives `'1'`, and `str | int` gives `'1'`.

119. **Strict mode converts keys** (`PC.TextUnion.strict_key_converted`, `key_any_mode`): the methods of `Input` for keys ignore `strict`, so `dict[int, T]` takes the key `01` in strict mode; this is needed to read JSON at all, but there is no way to demand the canonical text.
120. **`to_json` loses the class of exceptions** (`PC.SerErr.not_same_raised`): a `KeyError` of a property is a `KeyError` from `to_python` and a `PydanticSerializationError` with the text `Error serializing to JSON: KeyError: 'a'` from `to_json`, without a cause; within `json` schemas with `round_trip` each level adds two more headings (`to_json_raises`).

121. **Markers are recognised in the texts of exceptions** (`PC.SerErr.marker_name`): errors are sent through serde as text with a marker in front, so an exception whose class is called like the marker is taken for an unexpected value. The comment at `extra.rs:438` says the marker for unexpected values is never sent; a union with a member `json` does send it with `round_trip`, and two such schemas within each other turn it into another class (`to_python_mismatch`).
122. **`warnings='error'` changes values** (`PC.WarnMode.error_mode_swallowed`): the handler of a `wrap` function checks the warnings after each call (`function.rs:514,521`), so a function that catches exceptions of its handler returns another value with `'error'` than with `'warn'` or `'none'`, and as the warnings were registered on a copy nothing is raised at the end.

123. **A NUL in a warning raises `ValueError`** (`PC.WarnMode.nul_raises`): the text goes through `CString::new(message)?` (`extra.rs:472`), so with the default mode a value whose `repr` (or a type whose name) has a NUL makes `to_python` fail where it should warn.
