import Verif.Model.Core
import Verif.Model.JsonText
import Verif.Model.Messages

/-
`ValidationError`: how an error is reported (`errors()`, `json()`, `str()`), built from data and pickled
(`src/errors/validation_exception.rs`, and `ErrorType` of `src/errors/types.rs`).
-/

namespace PC.Report
open PC.Float (F64)
open PC.Infer (Text)
open PC.JsonText (Doc Fmt)

/-- Python objects (`PyObject`), as far as reports look into them, `src/errors/validation_exception.rs:425-429`. -/
inductive Obj where
  | none
  | str (t : Text)
  | int (i : Int)
  | float (f : F64)
  | other (id : Nat)
  deriving DecidableEq

/-- A Python dict (`PyDict`): the keys in order, each once; contexts of `src/errors/types.rs:95`. -/
abbrev Dict := List (Obj × Obj)

/-- What is not modelled: `str()` of objects, `repr()` (`safe_repr`), the name of the class, the text of a double, the
conversion of an integer to a double, conversions of other objects, what inference serialises objects and dicts as
(`serialize_infer`), the prefix of URLs and the environment variable
(`src/errors/validation_exception.rs:203-239, 543-547, 651-657`). -/
structure Env where
  str : Obj → Text
  repr : Obj → Text
  qualname : Obj → Option Text
  showFloat : F64 → Text
  toFloat : Int → Option F64
  otherInt : Nat → Option Int
  otherFloat : Nat → Option F64
  otherStr : Nat → Option Text
  infer : Obj → Except Text Doc
  inferDict : Dict → Except Text Doc
  urlPrefix : Text
  includeUrlEnv : Bool

/-- Exceptions (`PyErr`), `src/errors/types.rs:45-57, 105`; `panic` is a Rust panic. -/
inductive Exc where
  | keyError (t : Text)
  | typeError (t : Text)
  | valueError (t : Text)
  | panic
  deriving DecidableEq

/-- The range of `i64`, `src/tools.rs:131-141`. -/
def isI64 (i : Int) : Bool := decide (-2 ^ 63 ≤ i) && decide (i < 2 ^ 63)

/-- `extract_i64`, `src/tools.rs:131-141`. -/
def asI64 (E : Env) : Obj → Option Int
  | .int i => if isI64 i then some i else none
  | .other n => (E.otherInt n).filter isI64
  | _ => none

/-- `extract::<f64>` of PyO3, `src/errors/types.rs:809`. -/
def asF64 (E : Env) : Obj → Option F64
  | .float f => some f
  | .int i => E.toFloat i
  | .other n => E.otherFloat n
  | _ => none

/-- `extract::<String>` and `downcast::<PyString>` of PyO3, `src/errors/types.rs:811`, `src/errors/value_exception.rs:123`; strings that are not valid Unicode are left out. -/
def asText (E : Env) : Obj → Option Text
  | .str t => some t
  | .other n => E.otherStr n
  | _ => none

/-- `extract` of an integer type of PyO3 with the given range, `src/errors/types.rs:55`. -/
def asInt (E : Env) (inRange : Int → Bool) : Obj → Option Int
  | .int i => if inRange i then some i else none
  | .other n => (E.otherInt n).filter inRange
  | _ => none

/-- `Number`, `src/errors/types.rs:771-777`. -/
inductive Num where
  | int (i : Int)
  | bigInt (i : Int)
  | float (f : F64)
  | string (t : Text)
  deriving DecidableEq

/-- `Display` for `Number`, `src/errors/types.rs:819-828`. -/
def Num.text (E : Env) : Num → Text
  | .int i => (toString i).toList
  | .bigInt i => (toString i).toList
  | .float f => E.showFloat f
  | .string t => t

/-- `IntoPyObject` for `Number`, derived, `src/errors/types.rs:771`. -/
def Num.toPy : Num → Obj
  | .int i => .int i
  | .bigInt i => .int i
  | .float f => .float f
  | .string t => .str t

/-- `FromPyObject` for `Number`, `src/errors/types.rs:805-817`. -/
def Num.extract (E : Env) (o : Obj) : Option Num :=
  match asI64 E o with
  | some i => some (.int i)
  | none =>
    match asF64 E o with
    | some f => some (.float f)
    | none => (asText E o).map .string

/-- The types of the fields of error types (`ctx_type`, `src/errors/types.rs:158-434`); `nat` is `usize` (64 bits) or
`u64`, `text` is `String` or `Cow<'static, str>`. -/
inductive Ty where
  | text | nat | optNat | int32 | number | object
  deriving DecidableEq

/-- A field of an error type, `src/errors/types.rs:96`. -/
inductive Val where
  | text (t : Text)
  | nat (n : Nat)
  | optNat (n : Option Nat)
  | int32 (i : Int)
  | number (n : Num)
  | object (o : Option Obj)
  deriving DecidableEq

/-- Conversion of a field to Python, in `py_dict_update_ctx`, `src/errors/types.rs:126-128`. -/
def Val.toPy : Val → Obj
  | .text t => .str t
  | .nat n => .int n
  | .optNat n => n.elim .none (.int ∘ Int.ofNat)
  | .int32 i => .int i
  | .number n => n.toPy
  | .object o => o.getD .none

/-- The range of `u64` and `usize`, `src/errors/types.rs:55`. -/
def isU64 (i : Int) : Bool := decide (0 ≤ i) && decide (i < 2 ^ 64)

/-- The range of `i32`, `src/errors/types.rs:55`. -/
def isI32 (i : Int) : Bool := decide (-2 ^ 31 ≤ i) && decide (i < 2 ^ 31)

/-- `extract::<T>()` in `field_from_context`, `src/errors/types.rs:55-56`. -/
def Ty.extract (E : Env) (o : Obj) : Ty → Option Val
  | .text => (asText E o).map .text
  | .nat => (asInt E isU64 o).map fun i => .nat i.toNat
  | .optNat => if o = .none then some (.optNat none) else (asInt E isU64 o).map fun i => .optNat (some i.toNat)
  | .int32 => (asInt E isI32 o).map .int32
  | .number => (Num.extract E o).map .number
  | .object => some (.object (if o = .none then none else some o))

/-- A variant of `ErrorType`: its name in snake case (`strum`), its fields, and the message type it has in
`Model/Messages.lean`; `src/errors/types.rs:82-152`. -/
structure Kind where
  name : Text
  fields : List (Text × Ty)
  make : List Val → Option Msg.Err

/-- The variants of `ErrorType` but `CustomError`, `src/errors/types.rs:158-434`. -/
def kinds (numText : Num → Text) (strText : Obj → Text) : List Kind :=
  [⟨"no_such_attribute".toList, [("attribute".toList, .text)], fun | [.text a] => some (.noSuchAttribute a) | _ => none⟩,
   ⟨"json_invalid".toList, [("error".toList, .text)], fun | [.text a] => some (.jsonInvalid a) | _ => none⟩,
   ⟨"json_type".toList, [], fun _ => some .jsonType⟩,
   ⟨"needs_python_object".toList, [("method_name".toList, .text)], fun | [.text a] => some (.needsPythonObject a) | _ => none⟩,
   ⟨"recursion_loop".toList, [], fun _ => some .recursionLoop⟩,
   ⟨"missing".toList, [], fun _ => some .missing⟩,
   ⟨"frozen_field".toList, [], fun _ => some .frozenField⟩,
   ⟨"frozen_instance".toList, [], fun _ => some .frozenInstance⟩,
   ⟨"extra_forbidden".toList, [], fun _ => some .extraForbidden⟩,
   ⟨"invalid_key".toList, [], fun _ => some .invalidKey⟩,
   ⟨"get_attribute_error".toList, [("error".toList, .text)], fun | [.text a] => some (.getAttributeError a) | _ => none⟩,
   ⟨"model_type".toList, [("class_name".toList, .text)], fun | [.text a] => some (.modelType a) | _ => none⟩,
   ⟨"model_attributes_type".toList, [], fun _ => some .modelAttributesType⟩,
   ⟨"dataclass_type".toList, [("class_name".toList, .text)], fun | [.text a] => some (.dataclassType a) | _ => none⟩,
   ⟨"dataclass_exact_type".toList, [("class_name".toList, .text)], fun | [.text a] => some (.dataclassExactType a) | _ => none⟩,
   ⟨"none_required".toList, [], fun _ => some .noneRequired⟩,
   ⟨"greater_than".toList, [("gt".toList, .number)], fun | [.number a] => some (.greaterThan (numText a)) | _ => none⟩,
   ⟨"greater_than_equal".toList, [("ge".toList, .number)], fun | [.number a] => some (.greaterThanEqual (numText a)) | _ => none⟩,
   ⟨"less_than".toList, [("lt".toList, .number)], fun | [.number a] => some (.lessThan (numText a)) | _ => none⟩,
   ⟨"less_than_equal".toList, [("le".toList, .number)], fun | [.number a] => some (.lessThanEqual (numText a)) | _ => none⟩,
   ⟨"multiple_of".toList, [("multiple_of".toList, .number)], fun | [.number a] => some (.multipleOf (numText a)) | _ => none⟩,
   ⟨"finite_number".toList, [], fun _ => some .finiteNumber⟩,
   ⟨"too_short".toList, [("field_type".toList, .text), ("min_length".toList, .nat), ("actual_length".toList, .nat)], fun | [.text a, .nat b, .nat c] => some (.tooShort a b c) | _ => none⟩,
   ⟨"too_long".toList, [("field_type".toList, .text), ("max_length".toList, .nat), ("actual_length".toList, .optNat)], fun | [.text a, .nat b, .optNat c] => some (.tooLong a b c) | _ => none⟩,
   ⟨"iterable_type".toList, [], fun _ => some .iterableType⟩,
   ⟨"iteration_error".toList, [("error".toList, .text)], fun | [.text a] => some (.iterationError a) | _ => none⟩,
   ⟨"string_type".toList, [], fun _ => some .stringType⟩,
   ⟨"string_sub_type".toList, [], fun _ => some .stringSubType⟩,
   ⟨"string_unicode".toList, [], fun _ => some .stringUnicode⟩,
   ⟨"string_too_short".toList, [("min_length".toList, .nat)], fun | [.nat a] => some (.stringTooShort a) | _ => none⟩,
   ⟨"string_too_long".toList, [("max_length".toList, .nat)], fun | [.nat a] => some (.stringTooLong a) | _ => none⟩,
   ⟨"string_pattern_mismatch".toList, [("pattern".toList, .text)], fun | [.text a] => some (.stringPatternMismatch a) | _ => none⟩,
   ⟨"enum".toList, [("expected".toList, .text)], fun | [.text a] => some (.enum a) | _ => none⟩,
   ⟨"dict_type".toList, [], fun _ => some .dictType⟩,
   ⟨"mapping_type".toList, [("error".toList, .text)], fun | [.text a] => some (.mappingType a) | _ => none⟩,
   ⟨"list_type".toList, [], fun _ => some .listType⟩,
   ⟨"tuple_type".toList, [], fun _ => some .tupleType⟩,
   ⟨"set_type".toList, [], fun _ => some .setType⟩,
   ⟨"set_item_not_hashable".toList, [], fun _ => some .setItemNotHashable⟩,
   ⟨"bool_type".toList, [], fun _ => some .boolType⟩,
   ⟨"bool_parsing".toList, [], fun _ => some .boolParsing⟩,
   ⟨"int_type".toList, [], fun _ => some .intType⟩,
   ⟨"int_parsing".toList, [], fun _ => some .intParsing⟩,
   ⟨"int_parsing_size".toList, [], fun _ => some .intParsingSize⟩,
   ⟨"int_from_float".toList, [], fun _ => some .intFromFloat⟩,
   ⟨"float_type".toList, [], fun _ => some .floatType⟩,
   ⟨"float_parsing".toList, [], fun _ => some .floatParsing⟩,
   ⟨"bytes_type".toList, [], fun _ => some .bytesType⟩,
   ⟨"bytes_too_short".toList, [("min_length".toList, .nat)], fun | [.nat a] => some (.bytesTooShort a) | _ => none⟩,
   ⟨"bytes_too_long".toList, [("max_length".toList, .nat)], fun | [.nat a] => some (.bytesTooLong a) | _ => none⟩,
   ⟨"bytes_invalid_encoding".toList, [("encoding".toList, .text), ("encoding_error".toList, .text)], fun | [.text a, .text b] => some (.bytesInvalidEncoding a b) | _ => none⟩,
   ⟨"value_error".toList, [("error".toList, .object)], fun | [.object a] => some (.valueError (a.map strText)) | _ => none⟩,
   ⟨"assertion_error".toList, [("error".toList, .object)], fun | [.object a] => some (.assertionError (a.map strText)) | _ => none⟩,
   ⟨"literal_error".toList, [("expected".toList, .text)], fun | [.text a] => some (.literalError a) | _ => none⟩,
   ⟨"date_type".toList, [], fun _ => some .dateType⟩,
   ⟨"date_parsing".toList, [("error".toList, .text)], fun | [.text a] => some (.dateParsing a) | _ => none⟩,
   ⟨"date_from_datetime_parsing".toList, [("error".toList, .text)], fun | [.text a] => some (.dateFromDatetimeParsing a) | _ => none⟩,
   ⟨"date_from_datetime_inexact".toList, [], fun _ => some .dateFromDatetimeInexact⟩,
   ⟨"date_past".toList, [], fun _ => some .datePast⟩,
   ⟨"date_future".toList, [], fun _ => some .dateFuture⟩,
   ⟨"time_type".toList, [], fun _ => some .timeType⟩,
   ⟨"time_parsing".toList, [("error".toList, .text)], fun | [.text a] => some (.timeParsing a) | _ => none⟩,
   ⟨"datetime_type".toList, [], fun _ => some .datetimeType⟩,
   ⟨"datetime_parsing".toList, [("error".toList, .text)], fun | [.text a] => some (.datetimeParsing a) | _ => none⟩,
   ⟨"datetime_object_invalid".toList, [("error".toList, .text)], fun | [.text a] => some (.datetimeObjectInvalid a) | _ => none⟩,
   ⟨"datetime_from_date_parsing".toList, [("error".toList, .text)], fun | [.text a] => some (.datetimeFromDateParsing a) | _ => none⟩,
   ⟨"datetime_past".toList, [], fun _ => some .datetimePast⟩,
   ⟨"datetime_future".toList, [], fun _ => some .datetimeFuture⟩,
   ⟨"timezone_naive".toList, [], fun _ => some .timezoneNaive⟩,
   ⟨"timezone_aware".toList, [], fun _ => some .timezoneAware⟩,
   ⟨"timezone_offset".toList, [("tz_expected".toList, .int32), ("tz_actual".toList, .int32)], fun | [.int32 a, .int32 b] => some (.timezoneOffset a b) | _ => none⟩,
   ⟨"time_delta_type".toList, [], fun _ => some .timeDeltaType⟩,
   ⟨"time_delta_parsing".toList, [("error".toList, .text)], fun | [.text a] => some (.timeDeltaParsing a) | _ => none⟩,
   ⟨"frozen_set_type".toList, [], fun _ => some .frozenSetType⟩,
   ⟨"is_instance_of".toList, [("class".toList, .text)], fun | [.text a] => some (.isInstanceOf a) | _ => none⟩,
   ⟨"is_subclass_of".toList, [("class".toList, .text)], fun | [.text a] => some (.isSubclassOf a) | _ => none⟩,
   ⟨"callable_type".toList, [], fun _ => some .callableType⟩,
   ⟨"union_tag_invalid".toList, [("discriminator".toList, .text), ("tag".toList, .text), ("expected_tags".toList, .text)], fun | [.text a, .text b, .text c] => some (.unionTagInvalid a b c) | _ => none⟩,
   ⟨"union_tag_not_found".toList, [("discriminator".toList, .text)], fun | [.text a] => some (.unionTagNotFound a) | _ => none⟩,
   ⟨"arguments_type".toList, [], fun _ => some .argumentsType⟩,
   ⟨"missing_argument".toList, [], fun _ => some .missingArgument⟩,
   ⟨"unexpected_keyword_argument".toList, [], fun _ => some .unexpectedKeywordArgument⟩,
   ⟨"missing_keyword_only_argument".toList, [], fun _ => some .missingKeywordOnlyArgument⟩,
   ⟨"unexpected_positional_argument".toList, [], fun _ => some .unexpectedPositionalArgument⟩,
   ⟨"missing_positional_only_argument".toList, [], fun _ => some .missingPositionalOnlyArgument⟩,
   ⟨"multiple_argument_values".toList, [], fun _ => some .multipleArgumentValues⟩,
   ⟨"url_type".toList, [], fun _ => some .urlType⟩,
   ⟨"url_parsing".toList, [("error".toList, .text)], fun | [.text a] => some (.urlParsing a) | _ => none⟩,
   ⟨"url_syntax_violation".toList, [("error".toList, .text)], fun | [.text a] => some (.urlSyntaxViolation a) | _ => none⟩,
   ⟨"url_too_long".toList, [("max_length".toList, .nat)], fun | [.nat a] => some (.urlTooLong a) | _ => none⟩,
   ⟨"url_scheme".toList, [("expected_schemes".toList, .text)], fun | [.text a] => some (.urlScheme a) | _ => none⟩,
   ⟨"uuid_type".toList, [], fun _ => some .uuidType⟩,
   ⟨"uuid_parsing".toList, [("error".toList, .text)], fun | [.text a] => some (.uuidParsing a) | _ => none⟩,
   ⟨"uuid_version".toList, [("expected_version".toList, .nat)], fun | [.nat a] => some (.uuidVersion a) | _ => none⟩,
   ⟨"decimal_type".toList, [], fun _ => some .decimalType⟩,
   ⟨"decimal_parsing".toList, [], fun _ => some .decimalParsing⟩,
   ⟨"decimal_max_digits".toList, [("max_digits".toList, .nat)], fun | [.nat a] => some (.decimalMaxDigits a) | _ => none⟩,
   ⟨"decimal_max_places".toList, [("decimal_places".toList, .nat)], fun | [.nat a] => some (.decimalMaxPlaces a) | _ => none⟩,
   ⟨"decimal_whole_digits".toList, [("whole_digits".toList, .nat)], fun | [.nat a] => some (.decimalWholeDigits a) | _ => none⟩,
   ⟨"complex_type".toList, [], fun _ => some .complexType⟩,
   ⟨"complex_str_parsing".toList, [], fun _ => some .complexStrParsing⟩]

/-- `ErrorType`, `src/errors/types.rs:90-99`. -/
inductive Error where
  | known (name : Text) (fields : List (Text × Val)) (context : Option Dict)
  | custom (type template : Text) (context : Option Dict)

/-- The lookup of `build_lookup`, `src/errors/types.rs:608-616`. -/
def lookup (E : Env) (name : Text) : Option Kind :=
  (kinds (Num.text E) E.str).find? fun k => k.name = name

/-- `PyDict::set_item`, `src/errors/types.rs:127`. -/
def setItem (d : Dict) (k v : Obj) : Dict :=
  if d.any (fun p => p.1 = k) then d.map fun p => if p.1 = k then (k, v) else p else d ++ [(k, v)]

/-- `PyDict::update`, `src/errors/types.rs:130`. -/
def update (d e : Dict) : Dict := e.foldl (fun d p => setItem d p.1 p.2) d

/-- `PyDict::get_item`, `src/errors/types.rs:53`. -/
def getItem (d : Dict) (k : Obj) : Option Obj := (d.find? fun p => p.1 = k).map Prod.snd

/-- `PyDict::del_item` of a key that is present, `src/errors/types.rs:757-758`. -/
def delItem (d : Dict) (k : Obj) : Dict := d.filter fun p => p.1 ≠ k

/-- `field_from_context`, `src/errors/types.rs:45-69`; the texts of the exceptions are shortened. -/
def fieldFromContext (E : Env) (ctx : Option Dict) (key : Text) (ty : Ty) : Except Exc Val :=
  match ctx with
  | none => .error (.typeError key)
  | some d =>
    match getItem d (.str key) with
    | none => .error (.typeError key)
    | some o =>
      match ty.extract E o with
      | none => .error (.typeError key)
      | some v => .ok v

/-- The fields in order, in `ErrorType::new`, `src/errors/types.rs:107-118`. -/
def fieldsFromContext (E : Env) (ctx : Option Dict) : List (Text × Ty) → Except Exc (List (Text × Val))
  | [] => .ok []
  | (k, ty) :: fs =>
    match fieldFromContext E ctx k ty with
    | .error e => .error e
    | .ok v =>
      match fieldsFromContext E ctx fs with
      | .error e => .error e
      | .ok vs => .ok ((k, v) :: vs)

/-- `ErrorType::new`, `src/errors/types.rs:101-119`. -/
def Error.new (E : Env) (name : Text) (ctx : Option Dict) : Except Exc Error :=
  match lookup E name with
  | none => .error (.keyError name)
  | some k =>
    match fieldsFromContext E ctx k.fields with
    | .error e => .error e
    | .ok fs => .ok (.known name fs ctx)

/-- `ErrorType::type_string`, `src/errors/types.rs:618-623`. -/
def Error.typeString : Error → Text
  | .known name _ _ => name
  | .custom type _ _ => type

/-- The fields set in a new dict, and the context on top of them: `py_dict_update_ctx`, `src/errors/types.rs:121-138`. -/
def contextDict (fields : List (Text × Obj)) (ctx : Option Dict) : Dict × Bool :=
  let d := fields.foldl (fun d p => setItem d (.str p.1) p.2) []
  match ctx with
  | none => (d, false)
  | some c => (update d c, true)

/-- `ErrorType::py_dict`, `src/errors/types.rs:749-768`. -/
def Error.pyDict : Error → Option Dict
  | .known _ fields ctx =>
    let (d, used) := contextDict (fields.map fun p => (p.1, p.2.toPy)) ctx
    if used || !d.isEmpty then some d else none
  | .custom type template ctx =>
    let (d, used) := contextDict [("error_type".toList, .str type), ("message_template".toList, .str template)] ctx
    if used then some (delItem (delItem d (.str "error_type".toList)) (.str "message_template".toList)) else none

/-- `InputType`, `src/input/input_abstract.rs:17-22`. -/
inductive InputType where
  | python | json | string
  deriving DecidableEq

/-- The template chosen by `render_message`, `src/errors/types.rs:626-629`. -/
def InputType.msg : InputType → Msg.InputType
  | .python => .python
  | _ => .json

/-- The text a value of a custom context is shown as, `src/errors/value_exception.rs:124-131`. -/
def customText (E : Env) (o : Obj) : Text :=
  match asText E o with
  | some t => t
  | none =>
    match asI64 E o with
    | some i => (toString i).toList
    | none => E.str o

/-- `PydanticCustomError::format_message`, `src/errors/value_exception.rs:119-135`. -/
def formatMessage (E : Env) : Dict → Text → Except Exc Text
  | [], message => .ok message
  | (k, v) :: d, message =>
    match asText E k with
    | none => .error (.typeError [])
    | some k => formatMessage E d (Msg.substitute k (customText E v) message)

/-- `ErrorType::render_message`, `src/errors/types.rs:625-747`. `panic` stands for a value that no constructor makes. -/
def Error.message (E : Env) (t : InputType) : Error → Except Exc Text
  | .known name fields _ =>
    match (lookup E name).bind fun k => k.make (fields.map Prod.snd) with
    | none => .error .panic
    | some e => .ok (Msg.renderMessage e t.msg)
  | .custom _ template ctx => formatMessage E (ctx.getD []) template

/-- `PyLineError`, `src/errors/validation_exception.rs:421-429`. -/
structure Line where
  error : Error
  location : Location
  input : Obj

/-- `ValidationError`, `src/errors/validation_exception.rs:30-38`. -/
structure VErr where
  lines : List Line
  title : Obj
  inputType : InputType
  hideInput : Bool

/-- The values in the dicts of `errors()`, and what `from_exception_data` may be given for `type`, `src/errors/validation_exception.rs:453-462, 501-518`. -/
inductive Shown where
  | text (t : Text)
  | loc (items : List LocItem)
  | obj (o : Obj)
  | dict (d : Dict)
  | custom (type template : Text) (context : Option Dict)

/-- The dict of an error (`PyLineError::as_dict`, `src/errors/validation_exception.rs:492-523`). -/
abbrev Details := List (Text × Shown)

/-- Whether it is a custom error, `src/errors/validation_exception.rs:513-516`. -/
def Error.isCustom : Error → Bool
  | .custom .. => true
  | .known .. => false

/-- `PyLineError::get_error_url`, `src/errors/validation_exception.rs:488-490`. -/
def Error.url (pre : Text) (e : Error) : Text := pre ++ e.typeString

/-- `PyLineError::as_dict`, `src/errors/validation_exception.rs:492-523`. -/
def Line.asDict (E : Env) (urlPrefix : Option Text) (includeContext : Bool) (t : InputType) (includeInput : Bool) (l : Line) :
    Except Exc Details :=
  match l.error.message E t with
  | .error e => .error e
  | .ok m =>
    let d : Details := [("type".toList, .text l.error.typeString), ("loc".toList, .loc l.location.toPy), ("msg".toList, .text m)]
    let d := if includeInput then d ++ [("input".toList, .obj l.input)] else d
    let d := if includeContext then
        match l.error.pyDict with
        | some c => d ++ [("ctx".toList, .dict c)]
        | none => d
      else d
    .ok (match urlPrefix with
      | some p => if l.error.isCustom then d else d ++ [("url".toList, .text (l.error.url p))]
      | none => d)

/-- `get_url_prefix`, `src/errors/validation_exception.rs:241-247`. -/
def urlPrefix (E : Env) (incl : Bool) : Option Text := if incl then some E.urlPrefix else none

/-- `ValidationError::errors`, `src/errors/validation_exception.rs:298-332`: the first exception is raised in the end. -/
def VErr.errors (E : Env) (includeUrl includeContext includeInput : Bool) (v : VErr) : Except Exc (List Details) :=
  let rec go : List Line → Except Exc (List Details)
    | [] => .ok []
    | l :: ls =>
      match l.asDict E (urlPrefix E includeUrl) includeContext v.inputType includeInput with
      | .error e => .error e
      | .ok d =>
        match go ls with
        | .error e => .error e
        | .ok ds => .ok (d :: ds)
  go v.lines

/-- `ValidationError::error_count`, `src/errors/validation_exception.rs:294-296`. -/
def VErr.errorCount (v : VErr) : Nat := v.lines.length

/-- `Serialize` for `LocItem`, `src/errors/location.rs:72-82`. -/
def locItemDoc : LocItem → Doc
  | .s t => .str t.toList
  | .i i => .int i

/-- `Serialize` for `Location`, `src/errors/location.rs:154-170`. -/
def locDoc : Location → Doc
  | .empty => .seq (some 0) []
  | .list items => .seq (some items.length) (items.reverse.map locItemDoc)

/-- The text of an exception (`PyErr`'s `Display`, used in `py_err_json` and `pretty`), shortened,
`src/errors/validation_exception.rs:537, 576-581`. -/
def Exc.text : Exc → Text
  | .keyError t => "KeyError: ".toList ++ t
  | .typeError t => "TypeError: ".toList ++ t
  | .valueError t => "ValueError: ".toList ++ t
  | .panic => []

/-- `PyLineErrorSerializer`, `src/errors/validation_exception.rs:615-665`. -/
def Line.doc (E : Env) (urlPrefix : Option Text) (includeContext : Bool) (t : InputType) (includeInput : Bool) (l : Line) :
    Except Text Doc :=
  let size := 3 + ([urlPrefix.isSome, includeContext, includeInput].filter id).length
  match l.error.message E t with
  | .error e => .error e.text
  | .ok m =>
    match if includeInput then (E.infer l.input).map fun i => [("input".toList, i)] else .ok [] with
    | .error e => .error e
    | .ok input =>
      match (match if includeContext then l.error.pyDict else none with
          | some c => (E.inferDict c).map fun c => [("ctx".toList, c)]
          | none => .ok []) with
      | .error e => .error e
      | .ok ctx =>
        let url := match urlPrefix with
          | some p => [("url".toList, Doc.str (l.error.url p))]
          | none => []
        .ok (.map (some size) ([("type".toList, Doc.str l.error.typeString), ("loc".toList, locDoc l.location),
          ("msg".toList, .str m)] ++ input ++ ctx ++ url))

/-- `ValidationErrorSerializer`, `src/errors/validation_exception.rs:583-613`. -/
def VErr.doc (E : Env) (includeUrl includeContext includeInput : Bool) (v : VErr) : Except Text Doc :=
  let rec go : List Line → Except Text (List Doc)
    | [] => .ok []
    | l :: ls =>
      match l.doc E (urlPrefix E includeUrl) includeContext v.inputType includeInput with
      | .error e => .error e
      | .ok d =>
        match go ls with
        | .error e => .error e
        | .ok ds => .ok (d :: ds)
  (go v.lines).map (.seq (some v.lines.length))

/-- `ValidationError::json`, `src/errors/validation_exception.rs:334-382`: the bytes of the string. -/
def VErr.json (E : Env) (ryu : F64 → Text) (f : Fmt) (includeUrl includeContext includeInput : Bool) (v : VErr) :
    Except Exc (List UInt8) :=
  match v.doc E includeUrl includeContext includeInput with
  | .error e => .error (.valueError e)
  | .ok d =>
    match JsonText.toJsonBytes ryu f d with
    | none => .error .panic
    | some bs => .ok bs

/-- `Display` for `LocItem`, `src/errors/location.rs:26-34`. -/
def locItemText : LocItem → Text
  | .s t => if t.toList.contains '.' then '`' :: t.toList ++ ['`'] else t.toList
  | .i i => (toString i).toList

/-- `Display` for `Location`, `src/errors/location.rs:124-134`. -/
def locText : Location → Text
  | .empty => []
  | .list items => List.intercalate ['.'] (items.reverse.map locItemText) ++ ['\n']

/-- `PyLineError::pretty`, `src/errors/validation_exception.rs:525-569`: the bytes of the text; `none` is a panic. -/
def Line.pretty (E : Env) (t : InputType) (urlPrefix : Option Text) (hideInput : Bool) (l : Line) : Option (List UInt8) :=
  let message := match l.error.message E t with
    | .ok m => m
    | .error e => "(error rendering message: ".toList ++ e.text ++ [')']
  let head := Trunc.encode (locText l.location ++ "  ".toList ++ message ++ " [type=".toList ++ l.error.typeString)
  let input : Option (List UInt8) :=
    if hideInput then some []
    else
      match Trunc.writeTruncated (Trunc.encode (E.repr l.input)) 50 with
      | none => none
      | some r => some (Trunc.encode ", input_value=".toList ++ r ++
          (match E.qualname l.input with
          | some n => Trunc.encode (", input_type=".toList ++ n)
          | none => []))
  match input with
  | none => none
  | some input =>
    let tail := match urlPrefix with
      | some p => if l.error.isCustom then [']'] else "]\n    For further information visit ".toList ++ l.error.url p
      | none => [']']
    some (head ++ input ++ Trunc.encode tail)

/-- `pretty_py_line_errors`, `src/errors/validation_exception.rs:407-419`: the blocks, before they are joined by newlines. -/
def prettyLines (E : Env) (t : InputType) (urlPrefix : Option Text) (hideInput : Bool) (ls : List Line) :
    Option (List (List UInt8)) :=
  ls.mapM (Line.pretty E t urlPrefix hideInput)

/-- `ValidationError::display` without a prefix, as `__str__` and `__repr__` call it,
`src/errors/validation_exception.rs:95-106, 384-390`. -/
def VErr.str (E : Env) (v : VErr) : Except Exc (List UInt8) :=
  match prettyLines E v.inputType (urlPrefix E E.includeUrlEnv) v.hideInput v.lines with
  | none => .error .panic
  | some blocks =>
    match asText E v.title with
    | none => .error .panic
    | some title =>
      let count := v.lines.length
      let plural := if count = 1 then [] else ['s']
      .ok (Trunc.encode ((toString count).toList ++ " validation error".toList ++ plural ++ " for ".toList ++ title ++ ['\n']) ++
        List.intercalate [10] blocks)

/-- `get_item` in a dict of details, `src/errors/validation_exception.rs:449-469`. -/
def Details.get (d : Details) (k : Text) : Option Shown := (d.find? fun p => p.1 = k).map Prod.snd

/-- `TryFrom<&Bound<PyAny>>` for `PyLineError`, `src/errors/validation_exception.rs:442-477`, for dicts with values such as
`Shown`. -/
def Line.ofDetails (E : Env) (d : Details) : Except Exc Line :=
  match d.get "type".toList with
  | none => .error (.keyError "type".toList)
  | some ty =>
    let error : Except Exc Error :=
      match ty with
      | .text name =>
        match d.get "ctx".toList with
        | none => Error.new E name none
        | some (.dict c) => Error.new E name (some c)
        | some _ => .error (.typeError "ctx".toList)
      | .custom type template ctx => .ok (.custom type template ctx)
      | _ => .error (.typeError "type".toList)
    match error with
    | .error e => .error e
    | .ok error =>
      let loc : Except Exc Location :=
        match d.get "loc".toList with
        | none => .ok .empty
        | some (.loc items) => .ok (Location.ofPy items)
        | some _ => .error (.typeError "loc".toList)
      match loc with
      | .error e => .error e
      | .ok loc =>
        .ok ⟨error, loc, match d.get "input".toList with
          | some (.obj o) => o
          | _ => .none⟩

/-- `ValidationError::from_exception_data`, `src/errors/validation_exception.rs:269-287`. -/
def fromExceptionData (E : Env) (title : Obj) (ds : List Details) (t : InputType) (hideInput : Bool) : Except Exc VErr :=
  let rec go : List Details → Except Exc (List Line)
    | [] => .ok []
    | d :: ds =>
      match Line.ofDetails E d with
      | .error e => .error e
      | .ok l =>
        match go ds with
        | .error e => .error e
        | .ok ls => .ok (l :: ls)
  (go ds).map fun ls => ⟨ls, title, t, hideInput⟩

/-- Pickling, `__reduce__`, `src/errors/validation_exception.rs:392-404`, and unpickling, which calls `from_exception_data`
with the arguments; that pickle copies the objects faithfully is assumed. -/
def repickle (E : Env) (v : VErr) : Except Exc VErr :=
  match v.errors E E.includeUrlEnv true true with
  | .error e => .error e
  | .ok ds => fromExceptionData E v.title ds v.inputType v.hideInput

end PC.Report
