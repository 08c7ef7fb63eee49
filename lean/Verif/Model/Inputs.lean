import Verif.Model.Core
import Verif.Model.IntParse
import Verif.Model.Floats

/-
Model of how scalars are read from the three kinds of input: Python objects
(`src/input/input_python.rs`), JSON (`src/input/input_json.rs`) and string mappings
(`src/input/input_string.rs`).
-/

namespace PC.In
open PC.Num PC.IntParse PC.Float

/-- The class of a Python object, as far as the code looks at it; `Sub` is a proper subclass.
The text of a `str` is `none` if it cannot be encoded in UTF-8 (`py_string_str`,
`src/input/return_enums.rs:519-526`); that of a `bytes` or `bytearray` object is `none` if it is
not UTF-8.  An object is an instance of at most one of these classes. -/
inductive Kind where
  | bool (b : Bool)
  | int (n : Int)
  | intSub (n : Int)
  | float (f : F64)
  | floatSub (f : F64)
  | str (s : Option (List Char))
  | strSub (s : Option (List Char))
  | bytes (b : List UInt8) (text : Option (List Char))
  | bytesSub (b : List UInt8) (text : Option (List Char))
  | bytearray (b : List UInt8) (text : Option (List Char))
  | decimal (finite : Bool) (num den : Int)
  | decimalSub (finite : Bool) (num den : Int)
  | other
  deriving DecidableEq, Repr

/-- A Python object other than a member of an enum. -/
structure PyBase where
  kind : Kind
  /-- `extract::<f64>` (`PyFloat_AsDouble`): the float, or what `__float__` or `__index__` give. -/
  float : Option F64
  /-- The int that `extract::<i64>` sees: `__index__`. -/
  index : Option Int
  /-- `str()`; `none` if it raises. -/
  strOf : Option (List Char)
  deriving DecidableEq, Repr

/-- A Python object; `enumValue` is what `maybe_as_enum` returns,
`src/input/input_python.rs:727-737`. -/
structure PyObj extends PyBase where
  enumValue : Option PyBase
  deriving DecidableEq, Repr

/-- `ValMatch`: a value with its exactness, or the type of the error. -/
abbrev Match (β : Type) := Except ErrType (β × Exactness)

/-- `.map(ValidationMatch::lax)` on the outcome of a conversion. -/
def lax {β : Type} : Checked β → Match β
  | .ok v => .ok (v, .lax)
  | .err t => .error t
  | .panic => .error (.other "panic")

/-- `.map(ValidationMatch::strict)` on the outcome of a conversion. -/
def strict' {β : Type} : Checked β → Match β
  | .ok v => .ok (v, .strict)
  | .err t => .error t
  | .panic => .error (.other "panic")

/-- `maybe_as_string`, `src/input/input_python.rs:701-713`. -/
def maybeAsString (k : Kind) (unicodeError : ErrType) : Except ErrType (Option (List Char)) :=
  match k with
  | .str none | .strSub none => .error (.other "string_unicode")
  | .str (some s) | .strSub (some s) => .ok (some s)
  | .bytes _ none | .bytesSub _ none => .error unicodeError
  | .bytes _ (some s) | .bytesSub _ (some s) => .ok (some s)
  | _ => .ok none

/-- The numeric part of the lax `validate_bool`, `src/input/input_python.rs:231-240`. -/
def boolOfNumber (x : PyObj) : Match Bool :=
  match x.index.bind extractI64 with
  | some i => lax (intAsBool i.toInt)
  | none =>
    match x.float with
    | some f =>
      match floatAsInt f with
      | .ok n =>
        match (EitherInt.i64 (Int64.ofInt n)).asBool with
        | some b => .ok (b, .lax)
        | none => .error (.other "bool_parsing")
      | _ => .error (.other "bool_type")
    | none => .error (.other "bool_type")

/-- `validate_bool` of a Python object, `src/input/input_python.rs:223-244`. -/
def PyObj.validateBool (strict : Bool) (x : PyObj) : Match Bool :=
  match x.kind with
  | .bool b => .ok (b, .exact)
  | k =>
    if strict then .error (.other "bool_type")
    else
      match maybeAsString k (.other "bool_parsing") with
      | .error e => .error e
      | .ok (some s) => lax (strAsBool s)
      | .ok none => boolOfNumber x

/-- What the int validator returns: an int, or the value of an enum member, whatever that is. -/
inductive IntOut where
  | int (n : Int)
  | obj (o : PyBase)
  deriving DecidableEq, Repr

/-- A conversion to int as an `IntOut`. -/
def intOut : Checked Int → Match IntOut
  | .ok n => .ok (.int n, .lax)
  | .err t => .error t
  | .panic => .error (.other "panic")

/-- The lax part of `validate_int`, `src/input/input_python.rs:263-281`.
`self.validate_decimal(true)` accepts decimals and, upcast, instances of subclasses. -/
def intLax (x : PyObj) : Match IntOut :=
  match maybeAsString x.kind (.other "int_parsing") with
  | .error e => .error e
  | .ok (some s) => intOut (strAsInt s)
  | .ok none =>
    match x.kind with
    | .float f => intOut (floatAsInt f)
    | .decimal fin num den | .decimalSub fin num den => intOut (decimalAsInt fin num den)
    | _ =>
      match x.float with
      | some f => intOut (floatAsInt f)
      | none =>
        match x.enumValue with
        | some v => .ok (.obj v, .lax)
        | none => .error (.other "int_type")

/-- `validate_int` of a Python object, `src/input/input_python.rs:246-284`. -/
def PyObj.validateInt (strict : Bool) (x : PyObj) : Match IntOut :=
  match x.kind with
  | .int n => .ok (.int n, .exact)
  | .bool b => if strict then .error (.other "int_type") else .ok (.int (if b then 1 else 0), .lax)
  | .intSub n => .ok (.int n, .strict)
  | _ => if strict then .error (.other "int_type") else intLax x

/-- The text of a Python string as used by `validate_str`: an exact `str` is passed on as it is,
even if it cannot be encoded. -/
inductive StrOut where
  | text (s : List Char)
  | unencodable
  deriving DecidableEq, Repr

/-- The number and enum part of the lax `validate_str`, `src/input/input_python.rs:172-186`. -/
def strOfNumber (coerce : Bool) (x : PyObj) : Match StrOut :=
  let isNumber :=
    match x.kind with
    | .int _ | .intSub _ | .float _ | .floatSub _ | .decimal .. | .decimalSub .. => true
    | _ => false
  if coerce && isNumber then
    match x.strOf with
    | some s => .ok (.text s, .lax)
    | none => .error (.other "internal")
  else
    match x.enumValue with
    | some v =>
      match v.strOf with
      | some s => .ok (.text s, .lax)
      | none => .error (.other "internal")
    | none => .error (.other "string_type")

/-- `validate_str` of a Python object, `src/input/input_python.rs:149-190`. -/
def PyObj.validateStr (strict coerce : Bool) (x : PyObj) : Match StrOut :=
  match x.kind with
  | .str (some s) => .ok (.text s, .exact)
  | .str none => .ok (.unencodable, .exact)
  | .strSub (some s) => .ok (.text s, .strict)
  | .strSub none => .error (.other "string_unicode")
  | .bytes _ t | .bytesSub _ t | .bytearray _ t =>
    if strict then .error (.other "string_type")
    else
      match t with
      | some s => .ok (.text s, .lax)
      | none => .error (.other "string_unicode")
  | _ => if strict then .error (.other "string_type") else strOfNumber coerce x

/-- `validate_bytes` of a Python object, `src/input/input_python.rs:192-221`; `deser` is
`ValBytesMode::deserialize_string`. -/
def PyObj.validateBytes (deser : List Char → Except ErrType (List UInt8)) (strict : Bool)
    (x : PyObj) : Match (List UInt8) :=
  match x.kind with
  | .bytes b _ => .ok (b, .exact)
  | .bytesSub b _ => .ok (b, .strict)
  | .str s | .strSub s =>
    if strict then .error (.other "bytes_type")
    else
      match s with
      | none => .error (.other "string_unicode")
      | some s => (deser s).map fun b => (b, .lax)
  | .bytearray b _ => if strict then .error (.other "bytes_type") else .ok (b, .lax)
  | _ => .error (.other "bytes_type")

/-- `str_as_float`, `src/input/shared.rs:101-109`; `parse` is Rust's `str::parse::<f64>`. -/
def strAsFloat (parse : List Char → Option F64) (s : List Char) : Checked F64 :=
  match parse (trim s) with
  | some f => .ok f
  | none =>
    match (stripUnderscores s).bind parse with
    | some f => .ok f
    | none => .err (.other "float_parsing")

/-- The last part of `validate_float`, `src/input/input_python.rs:314-326`. -/
def floatOfNumber (strict : Bool) (x : PyObj) : Match F64 :=
  match x.float with
  | some f =>
    match x.kind with
    | .bool _ => if strict then .error (.other "float_type") else .ok (f, .lax)
    | _ => .ok (f, .strict)
  | none => .error (.other "float_type")

/-- `validate_float` of a Python object, `src/input/input_python.rs:302-327`. -/
def PyObj.validateFloat (parse : List Char → Option F64) (strict : Bool) (x : PyObj) : Match F64 :=
  match x.kind with
  | .float f => .ok (f, .exact)
  | k =>
    if strict then floatOfNumber strict x
    else
      match maybeAsString k (.other "float_parsing") with
      | .error e => .error e
      | .ok (some s) => lax (strAsFloat parse s)
      | .ok none => floatOfNumber strict x

/-- A decimal number with its sign, digits and exponent hidden in `D`: what `validate_decimal`
needs of the `decimal` module.  `create` is `create_decimal`
(`src/validators/decimal.rs:280-292`) on the object itself, `createStr` on its `str()`. -/
structure DecimalOps (D : Type) where
  self : PyObj → D
  create : PyObj → Except ErrType D
  createStr : PyObj → Except ErrType D

/-- `validate_decimal` of a Python object, `src/input/input_python.rs:329-367`. -/
def PyObj.validateDecimal {D : Type} (d : DecimalOps D) (strict : Bool) (x : PyObj) : Match D :=
  match x.kind with
  | .decimal .. => .ok (d.self x, .exact)
  | .str _ | .strSub _ | .int _ | .intSub _ =>
    if strict then .error (.other "is_instance_of") else (d.create x).map fun v => (v, .lax)
  | .float _ | .floatSub _ =>
    if strict then .error (.other "is_instance_of") else (d.createStr x).map fun v => (v, .lax)
  | .decimalSub .. => (d.create x).map fun v => (v, .strict)
  | _ => if strict then .error (.other "is_instance_of") else .error (.other "decimal_type")

/-! ### JSON -/

/-- `JsonValue` of the `jiter` crate.  `int n` is `Int` if `n` fits in an `i64`, else `BigInt`. -/
inductive Json where
  | null
  | bool (b : Bool)
  | int (n : Int)
  | float (f : F64)
  | str (s : List Char)
  | array
  | object
  deriving DecidableEq, Repr

/-- `validate_bool` of a JSON value, `src/input/input_json.rs:139-153`. -/
def Json.validateBool (strict : Bool) : Json → Match Bool
  | .bool b => .ok (b, .exact)
  | .str s => if strict then .error (.other "bool_type") else lax (strAsBool s)
  | .int n =>
    if strict then .error (.other "bool_type")
    else
      match extractI64 n with
      | some i => lax (intAsBool i.toInt)
      | none => .error (.other "bool_type")
  | .float f =>
    if strict then .error (.other "bool_type")
    else
      match floatAsInt f with
      | .ok n =>
        match (EitherInt.i64 (Int64.ofInt n)).asBool with
        | some b => .ok (b, .lax)
        | none => .error (.other "bool_parsing")
      | _ => .error (.other "bool_type")
  | _ => .error (.other "bool_type")

/-- `validate_int` of a JSON value, `src/input/input_json.rs:155-164`. -/
def Json.validateInt (strict : Bool) : Json → Match IntOut
  | .int n => .ok (.int n, .exact)
  | .bool b => if strict then .error (.other "int_type") else .ok (.int (if b then 1 else 0), .lax)
  | .float f => if strict then .error (.other "int_type") else intOut (floatAsInt f)
  | .str s => if strict then .error (.other "int_type") else intOut (strAsInt s)
  | _ => .error (.other "int_type")

/-- The conversions of numbers that JSON inputs use: `show` prints a number, `ofInt` is
`i64 as f64` or `BigInt::to_f64`. -/
structure JsonOps where
  showInt : Int → List Char
  showFloat : F64 → List Char
  ofInt : Int → F64

/-- `validate_str` of a JSON value, `src/input/input_json.rs:110-123`. -/
def Json.validateStr (j : JsonOps) (strict coerce : Bool) : Json → Match StrOut
  | .str s => .ok (.text s, .strict)
  | .int n =>
    if !strict && coerce then .ok (.text (j.showInt n), .lax) else .error (.other "string_type")
  | .float f =>
    if !strict && coerce then .ok (.text (j.showFloat f), .lax) else .error (.other "string_type")
  | _ => .error (.other "string_type")

/-- `validate_bytes` of a JSON value, `src/input/input_json.rs:125-137`. -/
def Json.validateBytes (deser : List Char → Except ErrType (List UInt8)) : Json → Match (List UInt8)
  | .str s => (deser s).map fun b => (b, .strict)
  | _ => .error (.other "bytes_type")

/-- `validate_float` of a JSON value, `src/input/input_json.rs:173-184`. -/
def Json.validateFloat (j : JsonOps) (parse : List Char → Option F64) (strict : Bool) :
    Json → Match F64
  | .float f => .ok (f, .exact)
  | .int n => .ok (j.ofInt n, .strict)
  | .bool b =>
    if strict then .error (.other "float_type") else .ok (.fin (if b then 1 else 0) 0, .lax)
  | .str s => if strict then .error (.other "float_type") else lax (strAsFloat parse s)
  | _ => .error (.other "float_type")

/-! ### String mappings -/

/-- `StringMapping`, `src/input/input_string.rs:25-29`; the text of a string is `none` if it
cannot be encoded. -/
inductive StrMap where
  | string (s : Option (List Char))
  | mapping
  deriving DecidableEq, Repr

/-- A string of a mapping, read by a conversion, `src/input/input_string.rs:129-148`. -/
def StrMap.read {β : Type} (conv : List Char → Checked β) (typeError : ErrType) : StrMap → Match β
  | .string (some s) => strict' (conv s)
  | .string none => .error (.other "string_unicode")
  | .mapping => .error typeError

/-- `validate_bool` of a string mapping, `src/input/input_string.rs:129-134`; the strictness is
ignored. -/
def StrMap.validateBool (_strict : Bool) (x : StrMap) : Match Bool :=
  x.read strAsBool (.other "bool_type")

/-- `validate_int` of a string mapping, `src/input/input_string.rs:136-141`. -/
def StrMap.validateInt (_strict : Bool) (x : StrMap) : Match Int :=
  x.read strAsInt (.other "int_type")

/-- `validate_float` of a string mapping, `src/input/input_string.rs:143-148`. -/
def StrMap.validateFloat (parse : List Char → Option F64) (_strict : Bool) (x : StrMap) :
    Match F64 :=
  x.read (strAsFloat parse) (.other "float_type")

end PC.In
