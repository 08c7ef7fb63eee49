import Verif.Model.Bytes
import Verif.Model.Inputs

/-
Bytes schemas: `src/validators/bytes.rs`.
-/

namespace PC.BytesVal
open PC.In

/-- `BytesValidator` and `BytesConstrainedValidator`, `src/validators/bytes.rs:15-19, 63-69`; `BytesValidator` (43-60) is
the one without limits: it is built if the schema has neither (27-39), and does the same. -/
structure BytesV where
  strict : Bool
  mode : Bytes.Mode
  minLength : Option Nat
  maxLength : Option Nat

/-- Inputs: Python objects, for which `len` is `len(x)` (`none`: it raises); JSON values; keys of JSON objects
(`src/input/input_json.rs:425-434`); strings of `validate_strings` (`src/input/input_string.rs:115-127`; `none`: it has no
UTF-8 form), mappings of it. -/
inductive Inp where
  | py (x : PyObj) (len : Option Nat)
  | json (x : Json)
  | key (s : List Char)
  | string (s : Option (List Char))
  | mapping

/-- The error of a validator: a line of a `ValidationError`, or an exception raised by `len`. -/
inductive BErr where
  | line (t : ErrType)
  | raised
  deriving DecidableEq

/-- `Input::validate_bytes`, `src/input/input_python.rs:192-221`, `src/input/input_json.rs:125-137, 425-434`,
`src/input/input_string.rs:115-127`. -/
def read (m : Bytes.Mode) (strict : Bool) : Inp → Match (List UInt8)
  | .py x _ => x.validateBytes (Bytes.deserialize m) strict
  | .json x => x.validateBytes (Bytes.deserialize m)
  | .key s => (Bytes.deserialize m s).map fun b => (b, .strict)
  | .string (some s) => (Bytes.deserialize m s).map fun b => (b, .strict)
  | .string none => .error (.other "string_unicode")
  | .mapping => .error (.other "bytes_type")

/-- `EitherBytes::len`, `src/input/return_enums.rs:561-566`: a `bytes` object is asked with `len(x)`, which a subclass may
define; what was decoded or copied has the length it has. `none`: `len` raises. -/
def length (inp : Inp) (b : List UInt8) : Option Nat :=
  match inp with
  | .py x len =>
    match x.kind with
    | .bytes _ _ => some b.length
    | .bytesSub _ _ => len
    | _ => some b.length
  | _ => some b.length

/-- `BytesConstrainedValidator::validate`, `src/validators/bytes.rs:74-109`; `strict` is what the state says. -/
def BytesV.validate (v : BytesV) (strict : Option Bool) (inp : Inp) : Except BErr (List UInt8 × Exactness) :=
  match read v.mode (strict.getD v.strict) inp with
  | .error e => .error (.line e)
  | .ok (b, ex) =>
    match length inp b with
    | none => if v.minLength.isNone && v.maxLength.isNone then .ok (b, ex) else .error .raised
    | some n =>
      if v.minLength.any (n < ·) then .error (.line (.other "bytes_too_short"))
      else if v.maxLength.any (· < n) then .error (.line (.other "bytes_too_long"))
      else .ok (b, ex)

end PC.BytesVal
