/-
Model of what is raised when serialising fails: `src/serializers/errors.rs`, the two ways an error takes from the place
where it arises to the caller of `to_python` and `to_json` (`PyResult`, and the text of a serde error), and the places
where one is turned into the other: `to_json_bytes` (`src/serializers/shared.rs:353-381`), the serialiser of `json` schemas
(`src/serializers/type_serializers/json.rs:49-97`) and the keys of dicts (`src/serializers/type_serializers/dict.rs:75-140`).
-/

namespace PC.SerErr

abbrev Text := List Char

/-- A value as far as messages show it: its `repr` cut by `truncate_safe_repr` (`src/tools.rs:121-129`), and the name of
its type. -/
structure Shown where
  repr : Text
  typeName : Text
  deriving DecidableEq, Repr

/-- Exceptions: `PydanticSerializationError` and `PydanticSerializationUnexpectedValue`, `src/serializers/errors.rs:63-103`,
and all others, with the qualified name of their class and their `str()`, `none` if that raises. -/
inductive Exc where
  | serError (message : Text)
  | unexpected (message fieldType : Option Text) (value : Option Shown)
  | other (qualname : Text) (str : Option Text)
  deriving DecidableEq, Repr

/-- `PydanticSerializationUnexpectedValue::__str__`, `src/serializers/errors.rs:152-183`, statement by statement. -/
def unexpectedStr (message fieldType : Option Text) (value : Option Shown) : Text :=
  let m := message.getD []
  let m := match fieldType with
    | none => m
    | some t =>
      let m := if m.isEmpty then m else m ++ ": ".toList
      let m := m ++ "Expected `".toList ++ t ++ "`".toList
      if value.isSome then m ++ " - serialized value may not be as expected".toList else m
  let m := match value with
    | none => m
    | some v => m ++ " [input_value=".toList ++ v.repr ++ ", input_type=".toList ++ v.typeName ++ "]".toList
  if m.isEmpty then "Unexpected Value".toList else m

/-- `Display` of `PyErr` in PyO3, used by `py_err_se_err`, `src/serializers/errors.rs:17-19`: the qualified name of the
class, then the text. -/
def display : Exc → Text
  | .serError m => "PydanticSerializationError: ".toList ++ m
  | .unexpected m t v => "PydanticSerializationUnexpectedValue: ".toList ++ unexpectedStr m t v
  | .other q (some s) => q ++ ": ".toList ++ s
  | .other q none => q ++ ": <exception str() failed>".toList

/-- `UNEXPECTED_TYPE_SER_MARKER`, `src/serializers/errors.rs:13`. -/
def unexpectedMarker : Text := "__PydanticSerializationUnexpectedValue__".toList

/-- `SERIALIZATION_ERR_MARKER`, `src/serializers/errors.rs:14`. -/
def serErrorMarker : Text := "__PydanticSerializationError__".toList

/-- `str::strip_prefix`, used at `src/serializers/errors.rs:49,55`. -/
def stripPrefix : Text → Text → Option Text
  | [], t => some t
  | _ :: _, [] => none
  | p :: ps, c :: cs => if p = c then stripPrefix ps cs else none

/-- `se_err_py_err`, `src/serializers/errors.rs:47-61`. -/
def seErrPyErr (s : Text) : Exc :=
  match stripPrefix unexpectedMarker s with
  | some [] => .unexpected none none none
  | some msg => .unexpected (some msg) none none
  | none =>
    match stripPrefix serErrorMarker s with
    | some msg => .serError msg
    | none => .serError ("Error serializing to JSON: ".toList ++ s)

/-- What goes wrong: an exception raised by Python code that is called (a property, an iterator, `__str__`, the `fallback`
function), a value of unknown type (`src/serializers/infer.rs:245,556-562,694`), or a value that is not of the type of
the schema while a union tries its members (`src/serializers/extra.rs:412-444`). -/
inductive Origin where
  | raised (e : Exc)
  | unknown (typeRepr : Text)
  | mismatch (fieldType : Text) (value : Shown)
  deriving DecidableEq, Repr

/-- `unknown_type_error`, `src/serializers/infer.rs:568-573`, without the class. -/
def unknownText (typeRepr : Text) : Text := "Unable to serialize unknown type: ".toList ++ typeRepr

/-- The exception raised where it arises, if the place is reached by `to_python` or `json_key`: `src/serializers/infer.rs:
245,694`, `src/serializers/extra.rs:416-421`. -/
def Origin.python : Origin → Exc
  | .raised e => e
  | .unknown r => .serError (unknownText r)
  | .mismatch t v => .unexpected none (some t) (some v)

/-- The serde error where it arises, if the place is reached by `serde_serialize`: `py_err_se_err`, `src/serializers/
infer.rs:556-562`, `src/serializers/extra.rs:441`. -/
def Origin.serde : Origin → Text
  | .raised e => display e
  | .unknown r => serErrorMarker ++ unknownText r
  | .mismatch _ _ => unexpectedMarker

/-- What lies between the root of the schema and the place: a serialiser that hands errors on (list, dict, model, nullable,
definitions and so on), a `json` schema, or the keys of a dict. -/
inductive Layer where
  | wrap
  | json
  | key
  deriving DecidableEq, Repr

mutual

/-- `to_python` in JSON mode: `src/serializers/type_serializers/json.rs:50-65`, `src/serializers/type_serializers/
dict.rs:90-93`. -/
def pyErr (roundTrip : Bool) : List Layer → Origin → Exc
  | [], o => o.python
  | .wrap :: ls, o => pyErr roundTrip ls o
  | .json :: ls, o => if roundTrip then seErrPyErr (serErr roundTrip ls o) else pyErr roundTrip ls o
  | .key :: ls, o => keyErr roundTrip ls o

/-- `serde_serialize`: `src/serializers/type_serializers/json.rs:78-97`, `src/serializers/type_serializers/dict.rs:130`. -/
def serErr (roundTrip : Bool) : List Layer → Origin → Text
  | [], o => o.serde
  | .wrap :: ls, o => serErr roundTrip ls o
  | .json :: ls, o =>
    if roundTrip then display (seErrPyErr (serErr roundTrip ls o)) else serErr roundTrip ls o
  | .key :: ls, o => display (keyErr roundTrip ls o)

/-- `json_key`: `src/serializers/type_serializers/json.rs:67-76`. Simplification: without `round_trip` the key of a `json`
schema is inferred, whatever is below. -/
def keyErr (roundTrip : Bool) : List Layer → Origin → Exc
  | [], o => o.python
  | .wrap :: ls, o => keyErr roundTrip ls o
  | .json :: ls, o => if roundTrip then seErrPyErr (serErr roundTrip ls o) else keyErr roundTrip ls o
  | .key :: ls, o => keyErr roundTrip ls o

end

/-- `SchemaSerializer::to_python(mode='json')`, `src/serializers/mod.rs:152`. -/
def toPython (roundTrip : Bool) (ls : List Layer) (o : Origin) : Exc := pyErr roundTrip ls o

/-- `SchemaSerializer::to_json`, `src/serializers/mod.rs:198-206`, by `to_json_bytes`, `src/serializers/shared.rs:362-380`. -/
def toJson (roundTrip : Bool) (ls : List Layer) (o : Origin) : Exc := seErrPyErr (serErr roundTrip ls o)

end PC.SerErr
