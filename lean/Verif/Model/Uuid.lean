import Verif.Model.State
import Verif.Model.Inputs

/-
Model of `src/validators/uuid.rs` and `src/serializers/type_serializers/uuid.rs`.
-/

namespace PC.Uuid
open PC.In

/-- `uuid.SafeUUID` of Python's standard library. -/
inductive Safe where
  | safe
  | notSafe
  | unknown
  deriving DecidableEq, Repr

/-- An instance of `uuid.UUID` or of a subclass: its attributes `int`, `is_safe` and `version`
(a property that a subclass may override, even with one that raises or gives something else than
an `int` or `None`). -/
structure Obj where
  int : Nat
  isSafe : Safe
  version : Except PyErr (Option Nat)
  deriving Repr

/-- `Uuid::get_version_num` of the `uuid` crate: the upper half of byte 6. -/
def versionNum (n : Nat) : Nat := n / 2 ^ 76 % 16

/-- `Uuid::get_variant() == Variant::RFC4122` of the `uuid` crate: the two upper bits of byte 8
are `10`. -/
def rfc4122 (n : Nat) : Bool := n / 2 ^ 62 % 4 == 2

/-- The property `version` of Python's `uuid.UUID`. -/
def pyVersion (n : Nat) : Option Nat := if rfc4122 n then some (versionNum n) else none

/-- `InputType`, `src/input/input_abstract.rs:17-22`. -/
inductive InputType where
  | python
  | json
  | string
  deriving DecidableEq, Repr

/-- The three kinds of input; `inst` is the Python object as an instance of `uuid.UUID`, if it is
one. -/
inductive Input where
  | py (inst : Option Obj) (x : PyObj)
  | json (x : Json)
  | string (x : StrMap)

/-- `input_as_python_instance` for the class `uuid.UUID`, `src/input/input_python.rs:52-57`. -/
def Input.inst : Input → Option Obj
  | .py inst _ => inst
  | _ => none

/-- `Input::validate_str(true, false)`, `src/input/input_python.rs:149-190`,
`src/input/input_json.rs:110-123` and `src/input/input_string.rs:104-113`. -/
def Input.str (j : JsonOps) : Input → Match StrOut
  | .py _ x => x.validateStr true false
  | .json x => x.validateStr j true false
  | .string (.string (some s)) => .ok (.text s, .strict)
  | .string (.string none) => .ok (.unencodable, .strict)
  | .string .mapping => .error (.other "string_type")

/-- `Input::validate_bytes(true, utf8)`, `src/input/input_python.rs:192-221`,
`src/input/input_json.rs:125-137` and `src/input/input_string.rs:115-127`; only reached if
`validate_str` fails. -/
def Input.bytes (utf8 : List Char → Except ErrType (List UInt8)) : Input → Match (List UInt8)
  | .py _ x => x.validateBytes utf8 true
  | .json x => x.validateBytes utf8
  | .string _ => .error (.other "bytes_type")

/-- What is not part of the crate: `Uuid::parse_str` and UTF-8. -/
structure Env where
  parse : List Char → Option Nat
  decode : List UInt8 → Option (List Char)
  encode : List Char → Except ErrType (List UInt8)
  json : JsonOps

/-- `UuidValidator`, `src/validators/uuid.rs:71-75`. -/
structure UuidV where
  strict : Bool
  version : Option Nat
  deriving DecidableEq, Repr

/-- `build`, `src/validators/uuid.rs:80-93`, with `From<u8> for Version`,
`src/validators/uuid.rs:56-69`, whose
`unreachable!()` is `none`. -/
def build (strict : Bool) (version : Option Nat) : Option UuidV :=
  match version with
  | none => some ⟨strict, none⟩
  | some 1 => some ⟨strict, some 1⟩
  | some 3 => some ⟨strict, some 3⟩
  | some 4 => some ⟨strict, some 4⟩
  | some 5 => some ⟨strict, some 5⟩
  | some 6 => some ⟨strict, some 6⟩
  | some 7 => some ⟨strict, some 7⟩
  | some 8 => some ⟨strict, some 8⟩
  | some _ => none

/-- `Uuid::from_slice` of the `uuid` crate: sixteen bytes, most significant first. -/
def fromSlice (b : List UInt8) : Option Nat :=
  if b.length = 16 then some (b.foldl (fun n x => 256 * n + x.toNat) 0) else none

/-- The bytes branch of `get_uuid`, `src/validators/uuid.rs:181-204`. -/
def ofBytes (E : Env) (b : List UInt8) : Except ErrType Nat :=
  match (E.decode b).bind E.parse with
  | some n => .ok n
  | none =>
    match fromSlice b with
    | some n => .ok n
    | none => .error (.other "uuid_parsing")

/-- `get_uuid`, `src/validators/uuid.rs:166-220`. -/
def UuidV.getUuid (v : UuidV) (E : Env) (input : Input) : Except ErrType Nat :=
  let uuid : Except ErrType Nat :=
    match input.str E.json with
    | .ok (.unencodable, _) => .error (.other "string_unicode")
    | .ok (.text s, _) =>
      match E.parse s with
      | some n => .ok n
      | none => .error (.other "uuid_parsing")
    | .error _ =>
      match input.bytes E.encode with
      | .error _ => .error (.other "uuid_type")
      | .ok (b, _) => ofBytes E b
  match uuid with
  | .error t => .error t
  | .ok n =>
    match v.version with
    | some k => if versionNum n ≠ k then .error (.other "uuid_version") else .ok n
    | none => .ok n

/-- The result: the object that was given, or a new one. -/
inductive Out where
  | same (o : Obj)
  | created (o : Obj)

/-- `create_py_uuid`, `src/validators/uuid.rs:229-240`; the new object is of the class `uuid.UUID`
itself. -/
def createPyUuid (n : Nat) : Obj := ⟨n, .safe, .ok (pyVersion n)⟩

/-- `UuidValidator::validate`, `src/validators/uuid.rs:99-158`; `it` is
`state.extra().input_type`. -/
def UuidV.validate (v : UuidV) (E : Env) (it : InputType) : Validator Input Out := fun input st =>
  match input.inst with
  | some o =>
    match v.version with
    | some k =>
      match o.version with
      | .error e => (.error (.internal e), st)
      | .ok pv => if pv = some k then (.ok (.same o), st) else (.error (.new (.other "uuid_version") input), st)
    | none => (.ok (.same o), st)
  | none =>
    if st.strictOr v.strict && it == .python then (.error (.new (.other "is_instance_of") input), st)
    else
      let st := if it = .python then st.floorExactness .lax else st
      match v.getUuid E input with
      | .error t => (.error (.new t input), st)
      | .ok n =>
        match v.version with
        | some k =>
          if versionNum n ≠ k || !rfc4122 n then (.error (.new (.other "uuid_version") input), st)
          else (.ok (.created (createPyUuid n)), st)
        | none => (.ok (.created (createPyUuid n)), st)

/-! ### Serialisation -/

/-- A lower-case hexadecimal digit. -/
def hexDigit (d : Nat) : Char := Char.ofNat (if d < 10 then 48 + d else 87 + d)

/-- The lowest `k` hexadecimal digits of a number. -/
def hexDigits : Nat → Nat → List Char
  | 0, _ => []
  | k + 1, n => hexDigits k (n / 16) ++ [hexDigit (n % 16)]

/-- `Uuid::to_string` of the `uuid` crate: lower-case and hyphenated. -/
def print (n : Nat) : List Char :=
  hexDigits 8 (n / 2 ^ 96) ++ '-' :: hexDigits 4 (n / 2 ^ 80) ++ '-' :: hexDigits 4 (n / 2 ^ 64) ++
    '-' :: hexDigits 4 (n / 2 ^ 48) ++ '-' :: hexDigits 12 n

/-- `uuid_to_string`, `src/serializers/type_serializers/uuid.rs:14-19`; an `int` that does not fit
in a `u128` raises. -/
def uuidToString (o : Obj) : Except PyErr (List Char) :=
  if o.int < 2 ^ 128 then .ok (print o.int) else .error ⟨"OverflowError"⟩

end PC.Uuid
