import Verif.Model.Inputs
import Verif.Spec.Floats

/-
What lax mode accepts of a Python object for a bool, an int, a string, a float or bytes, as tables: one line for each
kind of object.
-/

namespace PC.In
open PC.Num PC.IntParse PC.Float

/-- The text of a `str` or `bytes` object, if it has one. -/
def Kind.text : Kind → Option (List Char)
  | .str s | .strSub s => s
  | .bytes _ s | .bytesSub _ s => s
  | _ => none

/-- The object is a `str` or `bytes`. -/
def Kind.isText : Kind → Bool
  | .str _ | .strSub _ | .bytes .. | .bytesSub .. => true
  | _ => false

/-- The object is an int, a float or a decimal; not a bool. -/
def Kind.isNumber : Kind → Bool
  | .int _ | .intSub _ | .float _ | .floatSub _ | .decimal .. | .decimalSub .. => true
  | _ => false

/-- The object is an int, a bool or a decimal. -/
def Kind.isWhole : Kind → Bool
  | .int _ | .intSub _ | .bool _ | .decimal .. | .decimalSub .. => true
  | _ => false

/-- The float an object is or says it is. -/
def PyObj.number (x : PyObj) : Option F64 :=
  match x.kind with
  | .float f => some f
  | _ => x.float

/-- The words for a truth value, in lower case. -/
def boolWords (b : Bool) : List String :=
  if b then ["1", "t", "y", "on", "yes", "true"] else ["0", "f", "n", "no", "off", "false"]

/-- What lax mode takes for a bool: bools; the words in any case; ints that are 0 or 1; failing an int of 64 bits,
floats that are 0 or 1. -/
inductive AsBool : PyObj → Bool → Exactness → Prop
  | bool {x b} (h : x.kind = .bool b) : AsBool x b .exact
  | word {x b s w} (h : x.kind.text = some s) (hw : w ∈ boolWords b) (hs : s.map asciiLower = w.toList) :
      AsBool x b .lax
  | int {x : PyObj} {b : Bool} (hk : ∀ b, x.kind ≠ .bool b) (ht : x.kind.isText = false)
      (h : x.index = some (if b then 1 else 0)) : AsBool x b .lax
  | float {x : PyObj} {b : Bool} {f} (hk : ∀ b, x.kind ≠ .bool b) (ht : x.kind.isText = false)
      (hi : ∀ n, x.index = some n → ¬ (-2 ^ 63 ≤ n ∧ n < 2 ^ 63)) (hf : x.float = some f)
      (h : f.value = some (if b then 1 else 0)) : AsBool x b .lax

/-- What lax mode takes for an int: ints; bools; texts that read as one; whole decimals; objects that are or have a
whole float within 64 bits; failing all that, the value of a member of an enum, whatever it is. -/
inductive AsInt : PyObj → IntOut → Exactness → Prop
  | int {x n} (h : x.kind = .int n) : AsInt x (.int n) .exact
  | intSub {x n} (h : x.kind = .intSub n) : AsInt x (.int n) .strict
  | bool {x b} (h : x.kind = .bool b) : AsInt x (.int (if b then 1 else 0)) .lax
  | text {x s n} (h : x.kind.text = some s) (hs : strAsInt s = .ok n) : AsInt x (.int n) .lax
  | decimal {x n} (h : x.kind = .decimal true n 1 ∨ x.kind = .decimalSub true n 1) : AsInt x (.int n) .lax
  | float {x : PyObj} {f} {n : Int} (hk : x.kind.isWhole = false) (ht : x.kind.isText = false)
      (hf : x.number = some f) (h : f.value = some (n : Rat)) (h1 : -2 ^ 63 < n) (h2 : n < 2 ^ 63) :
      AsInt x (.int n) .lax
  | enum {x : PyObj} {v} (hk : x.kind.isWhole = false) (ht : x.kind.isText = false)
      (hf : x.number = none) (h : x.enumValue = some v) : AsInt x (.obj v) .lax

/-- What lax mode takes for a string: strings; bytes and bytearrays that are UTF-8; the `str()` of numbers if
`coerce_numbers_to_str` is set; the `str()` of the value of a member of an enum. -/
inductive AsStr (coerce : Bool) : PyObj → StrOut → Exactness → Prop
  | str {x s} (h : x.kind = .str (some s)) : AsStr coerce x (.text s) .exact
  | lone {x} (h : x.kind = .str none) : AsStr coerce x .unencodable .exact
  | strSub {x s} (h : x.kind = .strSub (some s)) : AsStr coerce x (.text s) .strict
  | bytes {x b s} (h : x.kind = .bytes b (some s) ∨ x.kind = .bytesSub b (some s) ∨ x.kind = .bytearray b (some s)) :
      AsStr coerce x (.text s) .lax
  | number {x : PyObj} {s} (hc : coerce = true) (hk : x.kind.isNumber = true) (h : x.strOf = some s) :
      AsStr coerce x (.text s) .lax
  | enum {x : PyObj} {v s} (hc : coerce = false ∨ x.kind.isNumber = false) (ht : x.kind.isText = false)
      (hb : ∀ b s, x.kind ≠ .bytearray b s) (hv : x.enumValue = some v) (h : v.strOf = some s) :
      AsStr coerce x (.text s) .lax

/-- What lax mode takes for a float: floats; texts that read as one, with spaces around or single underscores inside;
objects that have a float. -/
inductive AsFloat (parse : List Char → Option F64) : PyObj → F64 → Exactness → Prop
  | float {x f} (h : x.kind = .float f) : AsFloat parse x f .exact
  | text {x s f} (h : x.kind.text = some s) (hs : parse (trim s) = some f) : AsFloat parse x f .lax
  | underscores {x s s' f} (h : x.kind.text = some s) (hn : parse (trim s) = none)
      (hu : stripUnderscores s = some s') (hs : parse s' = some f) : AsFloat parse x f .lax
  | bool {x b f} (h : x.kind = .bool b) (hf : x.float = some f) : AsFloat parse x f .lax
  | other {x : PyObj} {f} (hk : ∀ b, x.kind ≠ .bool b) (he : ∀ f, x.kind ≠ .float f) (ht : x.kind.isText = false)
      (hf : x.float = some f) : AsFloat parse x f .strict

/-- What lax mode takes for bytes: bytes, bytearrays and strings that decode. -/
inductive AsBytes (deser : List Char → Except ErrType (List UInt8)) : PyObj → List UInt8 → Exactness → Prop
  | bytes {x b s} (h : x.kind = .bytes b s) : AsBytes deser x b .exact
  | bytesSub {x b s} (h : x.kind = .bytesSub b s) : AsBytes deser x b .strict
  | bytearray {x b s} (h : x.kind = .bytearray b s) : AsBytes deser x b .lax
  | str {x s b} (h : x.kind = .str (some s) ∨ x.kind = .strSub (some s)) (hs : deser s = .ok b) : AsBytes deser x b .lax

/-- The errors of the int validator. -/
def intErrors : List String :=
  ["int_type", "int_parsing", "int_parsing_size", "int_from_float", "finite_number", "string_unicode"]

/-- The errors of the bool validator. -/
def boolErrors : List String := ["bool_type", "bool_parsing", "string_unicode"]

/-- The errors of the float validator. -/
def floatErrors : List String := ["float_type", "float_parsing", "string_unicode"]

end PC.In
