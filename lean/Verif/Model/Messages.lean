/-
Error types, their message templates, and how messages are rendered (`src/errors/types.rs`,
`src/errors/value_exception.rs`). Texts are lists of characters.
-/

namespace PC.Msg

/-- A value of the context of an error, as `errors()` shows it. `num` is a `Number`, given by its text;
`obj` an optional Python object, given by its `str()`. -/
inductive CtxVal where
  | str (s : List Char)
  | nat (n : Nat)
  | int (i : Int)
  | num (s : List Char)
  | optNat (n : Option Nat)
  | obj (s : Option (List Char))
  deriving DecidableEq

/-- `ErrorType`, `src/errors/types.rs:158-434`. A `Number` is given by its text (`Display`, lines
819-828), the exception of `value_error` and `assertion_error` by its `str()`. For a custom error `context`
lists the entries of the dict with the text of their values (`src/errors/value_exception.rs:121-132`: the
string itself, the integer, or `str()`). The optional `context` of the other variants, only shown in
`errors()`, is left out. -/
inductive Err where
  | noSuchAttribute (attr : List Char)
  | jsonInvalid (error : List Char)
  | jsonType
  | needsPythonObject (methodName : List Char)
  | recursionLoop
  | missing
  | frozenField
  | frozenInstance
  | extraForbidden
  | invalidKey
  | getAttributeError (error : List Char)
  | modelType (className : List Char)
  | modelAttributesType
  | dataclassType (className : List Char)
  | dataclassExactType (className : List Char)
  | noneRequired
  | greaterThan (gt : List Char)
  | greaterThanEqual (ge : List Char)
  | lessThan (lt : List Char)
  | lessThanEqual (le : List Char)
  | multipleOf (multipleOf : List Char)
  | finiteNumber
  | tooShort (fieldType : List Char) (minLength : Nat) (actualLength : Nat)
  | tooLong (fieldType : List Char) (maxLength : Nat) (actualLength : Option Nat)
  | iterableType
  | iterationError (error : List Char)
  | stringType
  | stringSubType
  | stringUnicode
  | stringTooShort (minLength : Nat)
  | stringTooLong (maxLength : Nat)
  | stringPatternMismatch (pattern : List Char)
  | enum (expected : List Char)
  | dictType
  | mappingType (error : List Char)
  | listType
  | tupleType
  | setType
  | setItemNotHashable
  | boolType
  | boolParsing
  | intType
  | intParsing
  | intParsingSize
  | intFromFloat
  | floatType
  | floatParsing
  | bytesType
  | bytesTooShort (minLength : Nat)
  | bytesTooLong (maxLength : Nat)
  | bytesInvalidEncoding (encoding : List Char) (encodingError : List Char)
  | valueError (error : Option (List Char))
  | assertionError (error : Option (List Char))
  | customError (errorType messageTemplate : List Char) (context : List (List Char × List Char))
  | literalError (expected : List Char)
  | dateType
  | dateParsing (error : List Char)
  | dateFromDatetimeParsing (error : List Char)
  | dateFromDatetimeInexact
  | datePast
  | dateFuture
  | timeType
  | timeParsing (error : List Char)
  | datetimeType
  | datetimeParsing (error : List Char)
  | datetimeObjectInvalid (error : List Char)
  | datetimeFromDateParsing (error : List Char)
  | datetimePast
  | datetimeFuture
  | timezoneNaive
  | timezoneAware
  | timezoneOffset (tzExpected : Int) (tzActual : Int)
  | timeDeltaType
  | timeDeltaParsing (error : List Char)
  | frozenSetType
  | isInstanceOf (cls : List Char)
  | isSubclassOf (cls : List Char)
  | callableType
  | unionTagInvalid (discriminator : List Char) (tag : List Char) (expectedTags : List Char)
  | unionTagNotFound (discriminator : List Char)
  | argumentsType
  | missingArgument
  | unexpectedKeywordArgument
  | missingKeywordOnlyArgument
  | unexpectedPositionalArgument
  | missingPositionalOnlyArgument
  | multipleArgumentValues
  | urlType
  | urlParsing (error : List Char)
  | urlSyntaxViolation (error : List Char)
  | urlTooLong (maxLength : Nat)
  | urlScheme (expectedSchemes : List Char)
  | uuidType
  | uuidParsing (error : List Char)
  | uuidVersion (expectedVersion : Nat)
  | decimalType
  | decimalParsing
  | decimalMaxDigits (maxDigits : Nat)
  | decimalMaxPlaces (decimalPlaces : Nat)
  | decimalWholeDigits (wholeDigits : Nat)
  | complexType
  | complexStrParsing

/-- `ErrorType::message_template_python`, `src/errors/types.rs:477-582`. -/
def templatePython : Err → List Char
  | .noSuchAttribute .. => "Object has no attribute '{attribute}'".toList
  | .jsonInvalid .. => "Invalid JSON: {error}".toList
  | .jsonType .. => "JSON input should be string, bytes or bytearray".toList
  | .needsPythonObject .. => "Cannot check `{method_name}` when validating from json, use a JsonOrPython validator instead".toList
  | .recursionLoop .. => "Recursion error - cyclic reference detected".toList
  | .missing .. => "Field required".toList
  | .frozenField .. => "Field is frozen".toList
  | .frozenInstance .. => "Instance is frozen".toList
  | .extraForbidden .. => "Extra inputs are not permitted".toList
  | .invalidKey .. => "Keys should be strings".toList
  | .getAttributeError .. => "Error extracting attribute: {error}".toList
  | .modelType .. => "Input should be a valid dictionary or instance of {class_name}".toList
  | .modelAttributesType .. => "Input should be a valid dictionary or object to extract fields from".toList
  | .dataclassType .. => "Input should be a dictionary or an instance of {class_name}".toList
  | .dataclassExactType .. => "Input should be an instance of {class_name}".toList
  | .noneRequired .. => "Input should be None".toList
  | .greaterThan .. => "Input should be greater than {gt}".toList
  | .greaterThanEqual .. => "Input should be greater than or equal to {ge}".toList
  | .lessThan .. => "Input should be less than {lt}".toList
  | .lessThanEqual .. => "Input should be less than or equal to {le}".toList
  | .multipleOf .. => "Input should be a multiple of {multiple_of}".toList
  | .finiteNumber .. => "Input should be a finite number".toList
  | .tooShort .. => "{field_type} should have at least {min_length} item{expected_plural} after validation, not {actual_length}".toList
  | .tooLong .. => "{field_type} should have at most {max_length} item{expected_plural} after validation, not {actual_length}".toList
  | .iterableType .. => "Input should be iterable".toList
  | .iterationError .. => "Error iterating over object, error: {error}".toList
  | .stringType .. => "Input should be a valid string".toList
  | .stringSubType .. => "Input should be a string, not an instance of a subclass of str".toList
  | .stringUnicode .. => "Input should be a valid string, unable to parse raw data as a unicode string".toList
  | .stringTooShort .. => "String should have at least {min_length} character{expected_plural}".toList
  | .stringTooLong .. => "String should have at most {max_length} character{expected_plural}".toList
  | .stringPatternMismatch .. => "String should match pattern '{pattern}'".toList
  | .enum .. => "Input should be {expected}".toList
  | .dictType .. => "Input should be a valid dictionary".toList
  | .mappingType .. => "Input should be a valid mapping, error: {error}".toList
  | .listType .. => "Input should be a valid list".toList
  | .tupleType .. => "Input should be a valid tuple".toList
  | .setType .. => "Input should be a valid set".toList
  | .setItemNotHashable .. => "Set items should be hashable".toList
  | .boolType .. => "Input should be a valid boolean".toList
  | .boolParsing .. => "Input should be a valid boolean, unable to interpret input".toList
  | .intType .. => "Input should be a valid integer".toList
  | .intParsing .. => "Input should be a valid integer, unable to parse string as an integer".toList
  | .intParsingSize .. => "Unable to parse input string as an integer, exceeded maximum size".toList
  | .intFromFloat .. => "Input should be a valid integer, got a number with a fractional part".toList
  | .floatType .. => "Input should be a valid number".toList
  | .floatParsing .. => "Input should be a valid number, unable to parse string as a number".toList
  | .bytesType .. => "Input should be a valid bytes".toList
  | .bytesTooShort .. => "Data should have at least {min_length} byte{expected_plural}".toList
  | .bytesTooLong .. => "Data should have at most {max_length} byte{expected_plural}".toList
  | .bytesInvalidEncoding .. => "Data should be valid {encoding}: {encoding_error}".toList
  | .valueError .. => "Value error, {error}".toList
  | .assertionError .. => "Assertion failed, {error}".toList
  | .customError .. => "".toList
  | .literalError .. => "Input should be {expected}".toList
  | .dateType .. => "Input should be a valid date".toList
  | .dateParsing .. => "Input should be a valid date in the format YYYY-MM-DD, {error}".toList
  | .dateFromDatetimeParsing .. => "Input should be a valid date or datetime, {error}".toList
  | .dateFromDatetimeInexact .. => "Datetimes provided to dates should have zero time - e.g. be exact dates".toList
  | .datePast .. => "Date should be in the past".toList
  | .dateFuture .. => "Date should be in the future".toList
  | .timeType .. => "Input should be a valid time".toList
  | .timeParsing .. => "Input should be in a valid time format, {error}".toList
  | .datetimeType .. => "Input should be a valid datetime".toList
  | .datetimeParsing .. => "Input should be a valid datetime, {error}".toList
  | .datetimeObjectInvalid .. => "Invalid datetime object, got {error}".toList
  | .datetimeFromDateParsing .. => "Input should be a valid datetime or date, {error}".toList
  | .datetimePast .. => "Input should be in the past".toList
  | .datetimeFuture .. => "Input should be in the future".toList
  | .timezoneNaive .. => "Input should not have timezone info".toList
  | .timezoneAware .. => "Input should have timezone info".toList
  | .timezoneOffset .. => "Timezone offset of {tz_expected} required, got {tz_actual}".toList
  | .timeDeltaType .. => "Input should be a valid timedelta".toList
  | .timeDeltaParsing .. => "Input should be a valid timedelta, {error}".toList
  | .frozenSetType .. => "Input should be a valid frozenset".toList
  | .isInstanceOf .. => "Input should be an instance of {class}".toList
  | .isSubclassOf .. => "Input should be a subclass of {class}".toList
  | .callableType .. => "Input should be callable".toList
  | .unionTagInvalid .. => "Input tag '{tag}' found using {discriminator} does not match any of the expected tags: {expected_tags}".toList
  | .unionTagNotFound .. => "Unable to extract tag using discriminator {discriminator}".toList
  | .argumentsType .. => "Arguments must be a tuple, list or a dictionary".toList
  | .missingArgument .. => "Missing required argument".toList
  | .unexpectedKeywordArgument .. => "Unexpected keyword argument".toList
  | .missingKeywordOnlyArgument .. => "Missing required keyword only argument".toList
  | .unexpectedPositionalArgument .. => "Unexpected positional argument".toList
  | .missingPositionalOnlyArgument .. => "Missing required positional only argument".toList
  | .multipleArgumentValues .. => "Got multiple values for argument".toList
  | .urlType .. => "URL input should be a string or URL".toList
  | .urlParsing .. => "Input should be a valid URL, {error}".toList
  | .urlSyntaxViolation .. => "Input violated strict URL syntax rules, {error}".toList
  | .urlTooLong .. => "URL should have at most {max_length} character{expected_plural}".toList
  | .urlScheme .. => "URL scheme should be {expected_schemes}".toList
  | .uuidType .. => "UUID input should be a string, bytes or UUID object".toList
  | .uuidParsing .. => "Input should be a valid UUID, {error}".toList
  | .uuidVersion .. => "UUID version {expected_version} expected".toList
  | .decimalType .. => "Decimal input should be an integer, float, string or Decimal object".toList
  | .decimalParsing .. => "Input should be a valid decimal".toList
  | .decimalMaxDigits .. => "Decimal input should have no more than {max_digits} digit{expected_plural} in total".toList
  | .decimalMaxPlaces .. => "Decimal input should have no more than {decimal_places} decimal place{expected_plural}".toList
  | .decimalWholeDigits .. => "Decimal input should have no more than {whole_digits} digit{expected_plural} before the decimal point".toList
  | .complexType .. => "Input should be a valid python complex object, a number, or a valid complex string following the rules at https://docs.python.org/3/library/functions.html#complex".toList
  | .complexStrParsing .. => "Input should be a valid complex string following the rules at https://docs.python.org/3/library/functions.html#complex".toList

/-- `ErrorType::message_template_json`, `src/errors/types.rs:584-601`. -/
def templateJson : Err → List Char
  | .modelType .. => "Input should be an object".toList
  | .modelAttributesType .. => "Input should be an object".toList
  | .dataclassType .. => "Input should be an object".toList
  | .noneRequired .. => "Input should be null".toList
  | .iterableType .. => "Input should be a valid array".toList
  | .dictType .. => "Input should be an object".toList
  | .listType .. => "Input should be a valid array".toList
  | .tupleType .. => "Input should be a valid array".toList
  | .setType .. => "Input should be a valid array".toList
  | .timeDeltaType .. => "Input should be a valid duration".toList
  | .timeDeltaParsing .. => "Input should be a valid duration, {error}".toList
  | .frozenSetType .. => "Input should be a valid array".toList
  | .argumentsType .. => "Arguments must be an array or an object".toList
  | e => templatePython e

/-- `plural_s`, `src/errors/types.rs:458-464`. -/
def pluralS (n : Nat) : List Char := if n = 1 then [] else ['s']

/-- `to_string` of a natural number. -/
def showNat (n : Nat) : List Char := (toString n).toList

/-- `to_string` of an integer. -/
def showInt (i : Int) : List Char := (toString i).toList

/-- `str::replace` with a non-empty pattern: every occurrence from left to right, without overlap; `skip`
characters of an occurrence are still to be passed over. -/
def replaceGo (pat val : List Char) : List Char → Nat → List Char
  | [], _ => []
  | _ :: cs, skip + 1 => replaceGo pat val cs skip
  | c :: cs, 0 =>
    if pat.isPrefixOf (c :: cs) then val ++ replaceGo pat val cs (pat.length - 1)
    else c :: replaceGo pat val cs 0

/-- One step of `render!` and `to_string_render!`, `src/errors/types.rs:436-456`:
`.replace("{name}", value)`. -/
def substitute (name val msg : List Char) : List Char :=
  replaceGo ('{' :: name ++ ['}']) val msg 0

/-- The substitutions made by `ErrorType::render_message`, in order, `src/errors/types.rs:625-747`; those
of a custom error are made by `PydanticCustomError::format_message`,
`src/errors/value_exception.rs:119-136`. -/
def substitutions : Err → List (List Char × List Char)
  | .noSuchAttribute attr => [("attribute".toList, attr)]
  | .jsonInvalid error => [("error".toList, error)]
  | .needsPythonObject methodName => [("method_name".toList, methodName)]
  | .getAttributeError error => [("error".toList, error)]
  | .modelType className => [("class_name".toList, className)]
  | .dataclassType className => [("class_name".toList, className)]
  | .dataclassExactType className => [("class_name".toList, className)]
  | .greaterThan gt => [("gt".toList, gt)]
  | .greaterThanEqual ge => [("ge".toList, ge)]
  | .lessThan lt => [("lt".toList, lt)]
  | .lessThanEqual le => [("le".toList, le)]
  | .multipleOf multipleOf => [("multiple_of".toList, multipleOf)]
  | .tooShort fieldType minLength actualLength => [("field_type".toList, fieldType),
      ("min_length".toList, showNat minLength),
      ("actual_length".toList, showNat actualLength),
      ("expected_plural".toList, pluralS minLength)]
  | .tooLong fieldType maxLength actualLength => [("field_type".toList, fieldType),
      ("max_length".toList, showNat maxLength),
      ("actual_length".toList, match actualLength with | none => "more".toList | some n => showNat n),
      ("expected_plural".toList, pluralS maxLength)]
  | .iterationError error => [("error".toList, error)]
  | .stringTooShort minLength => [("min_length".toList, showNat minLength),
      ("expected_plural".toList, pluralS minLength)]
  | .stringTooLong maxLength => [("max_length".toList, showNat maxLength),
      ("expected_plural".toList, pluralS maxLength)]
  | .stringPatternMismatch pattern => [("pattern".toList, pattern)]
  | .enum expected => [("expected".toList, expected)]
  | .mappingType error => [("error".toList, error)]
  | .bytesTooShort minLength => [("min_length".toList, showNat minLength),
      ("expected_plural".toList, pluralS minLength)]
  | .bytesTooLong maxLength => [("max_length".toList, showNat maxLength),
      ("expected_plural".toList, pluralS maxLength)]
  | .bytesInvalidEncoding encoding encodingError => [("encoding".toList, encoding),
      ("encoding_error".toList, encodingError)]
  | .valueError error => [("error".toList, error.getD "None".toList)]
  | .assertionError error => [("error".toList, error.getD "None".toList)]
  | .customError _ _ context => context
  | .literalError expected => [("expected".toList, expected)]
  | .dateParsing error => [("error".toList, error)]
  | .dateFromDatetimeParsing error => [("error".toList, error)]
  | .timeParsing error => [("error".toList, error)]
  | .datetimeParsing error => [("error".toList, error)]
  | .datetimeObjectInvalid error => [("error".toList, error)]
  | .datetimeFromDateParsing error => [("error".toList, error)]
  | .timezoneOffset tzExpected tzActual => [("tz_expected".toList, showInt tzExpected),
      ("tz_actual".toList, showInt tzActual)]
  | .timeDeltaParsing error => [("error".toList, error)]
  | .isInstanceOf cls => [("class".toList, cls)]
  | .isSubclassOf cls => [("class".toList, cls)]
  | .unionTagInvalid discriminator tag expectedTags => [("discriminator".toList, discriminator),
      ("tag".toList, tag),
      ("expected_tags".toList, expectedTags)]
  | .unionTagNotFound discriminator => [("discriminator".toList, discriminator)]
  | .urlParsing error => [("error".toList, error)]
  | .urlSyntaxViolation error => [("error".toList, error)]
  | .urlTooLong maxLength => [("max_length".toList, showNat maxLength),
      ("expected_plural".toList, pluralS maxLength)]
  | .urlScheme expectedSchemes => [("expected_schemes".toList, expectedSchemes)]
  | .uuidParsing error => [("error".toList, error)]
  | .uuidVersion expectedVersion => [("expected_version".toList, showNat expectedVersion)]
  | .decimalMaxDigits maxDigits => [("max_digits".toList, showNat maxDigits),
      ("expected_plural".toList, pluralS maxDigits)]
  | .decimalMaxPlaces decimalPlaces => [("decimal_places".toList, showNat decimalPlaces),
      ("expected_plural".toList, pluralS decimalPlaces)]
  | .decimalWholeDigits wholeDigits => [("whole_digits".toList, showNat wholeDigits),
      ("expected_plural".toList, pluralS wholeDigits)]
  | _ => []

/-- `InputType` as far as messages are concerned: Python, or JSON and strings. -/
inductive InputType where
  | python
  | json
  deriving DecidableEq

/-- `ErrorType::render_message`, `src/errors/types.rs:625-747`. -/
def renderMessage (e : Err) (t : InputType) : List Char :=
  let tmpl := match e with
    | .customError _ messageTemplate _ => messageTemplate
    | e => match t with
      | .python => templatePython e
      | .json => templateJson e
  (substitutions e).foldl (fun msg s => substitute s.1 s.2 msg) tmpl

/-- The context shown with the error: `py_dict_update_ctx`, `src/errors/types.rs:121-138`, and `py_dict`,
lines 749-768. The values of a custom error are given by their texts. -/
def context : Err → List (List Char × CtxVal)
  | .noSuchAttribute attr => [("attribute".toList, .str attr)]
  | .jsonInvalid error => [("error".toList, .str error)]
  | .needsPythonObject methodName => [("method_name".toList, .str methodName)]
  | .getAttributeError error => [("error".toList, .str error)]
  | .modelType className => [("class_name".toList, .str className)]
  | .dataclassType className => [("class_name".toList, .str className)]
  | .dataclassExactType className => [("class_name".toList, .str className)]
  | .greaterThan gt => [("gt".toList, .num gt)]
  | .greaterThanEqual ge => [("ge".toList, .num ge)]
  | .lessThan lt => [("lt".toList, .num lt)]
  | .lessThanEqual le => [("le".toList, .num le)]
  | .multipleOf multipleOf => [("multiple_of".toList, .num multipleOf)]
  | .tooShort fieldType minLength actualLength => [("field_type".toList, .str fieldType),
      ("min_length".toList, .nat minLength),
      ("actual_length".toList, .nat actualLength)]
  | .tooLong fieldType maxLength actualLength => [("field_type".toList, .str fieldType),
      ("max_length".toList, .nat maxLength),
      ("actual_length".toList, .optNat actualLength)]
  | .iterationError error => [("error".toList, .str error)]
  | .stringTooShort minLength => [("min_length".toList, .nat minLength)]
  | .stringTooLong maxLength => [("max_length".toList, .nat maxLength)]
  | .stringPatternMismatch pattern => [("pattern".toList, .str pattern)]
  | .enum expected => [("expected".toList, .str expected)]
  | .mappingType error => [("error".toList, .str error)]
  | .bytesTooShort minLength => [("min_length".toList, .nat minLength)]
  | .bytesTooLong maxLength => [("max_length".toList, .nat maxLength)]
  | .bytesInvalidEncoding encoding encodingError => [("encoding".toList, .str encoding),
      ("encoding_error".toList, .str encodingError)]
  | .valueError error => [("error".toList, .obj error)]
  | .assertionError error => [("error".toList, .obj error)]
  | .customError _ _ context => context.map (fun p => (p.1, .str p.2))
  | .literalError expected => [("expected".toList, .str expected)]
  | .dateParsing error => [("error".toList, .str error)]
  | .dateFromDatetimeParsing error => [("error".toList, .str error)]
  | .timeParsing error => [("error".toList, .str error)]
  | .datetimeParsing error => [("error".toList, .str error)]
  | .datetimeObjectInvalid error => [("error".toList, .str error)]
  | .datetimeFromDateParsing error => [("error".toList, .str error)]
  | .timezoneOffset tzExpected tzActual => [("tz_expected".toList, .int tzExpected),
      ("tz_actual".toList, .int tzActual)]
  | .timeDeltaParsing error => [("error".toList, .str error)]
  | .isInstanceOf cls => [("class".toList, .str cls)]
  | .isSubclassOf cls => [("class".toList, .str cls)]
  | .unionTagInvalid discriminator tag expectedTags => [("discriminator".toList, .str discriminator),
      ("tag".toList, .str tag),
      ("expected_tags".toList, .str expectedTags)]
  | .unionTagNotFound discriminator => [("discriminator".toList, .str discriminator)]
  | .urlParsing error => [("error".toList, .str error)]
  | .urlSyntaxViolation error => [("error".toList, .str error)]
  | .urlTooLong maxLength => [("max_length".toList, .nat maxLength)]
  | .urlScheme expectedSchemes => [("expected_schemes".toList, .str expectedSchemes)]
  | .uuidParsing error => [("error".toList, .str error)]
  | .uuidVersion expectedVersion => [("expected_version".toList, .nat expectedVersion)]
  | .decimalMaxDigits maxDigits => [("max_digits".toList, .nat maxDigits)]
  | .decimalMaxPlaces decimalPlaces => [("decimal_places".toList, .nat decimalPlaces)]
  | .decimalWholeDigits wholeDigits => [("whole_digits".toList, .nat wholeDigits)]
  | _ => []

end PC.Msg
