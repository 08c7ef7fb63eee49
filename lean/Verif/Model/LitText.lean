import Verif.Model.Literal
import Verif.Model.IntParse

/-
Model of literals and enums given as text that is no Python object: keys of JSON objects (`impl Input for str`,
`src/input/input_json.rs:372-520`) and the input of `validate_strings` (`src/input/input_string.rs`).
-/

namespace PC.Lit
open PC.Num PC.IntParse

/-- Where the text comes from. -/
inductive Source where
  /-- A key of a JSON object, `src/input/input_json.rs:372`. -/
  | jsonKey
  /-- `StringMapping::String`, `src/input/input_string.rs:21-25`. -/
  | strings
  deriving DecidableEq, Repr

/-- `Exactness`, `src/validators/validation_state.rs`. -/
inductive Exact where
  | lax
  | strict
  | exact
  deriving DecidableEq, Repr

/-- What a `Checked` value accepts: `if let Ok(..)`, `src/validators/literal.rs:105,116,194`. -/
def accepted : Checked γ → Option γ
  | .ok v => some v
  | _ => none

/-- `validate_bool`, `src/input/input_json.rs:436-438`, `src/input/input_string.rs:129-134`: the mode is not looked at. -/
def Source.bool (_src : Source) (_strict : Bool) (s : List Char) : Option Bool := accepted (strAsBool s)

/-- `validate_int`, `src/input/input_json.rs:440-442`, `src/input/input_string.rs:136-141`: the mode is not looked at;
a match from JSON is lax, one of `validate_strings` strict. -/
def Source.int (src : Source) (_strict : Bool) (s : List Char) : Option (Int × Exact) :=
  (accepted (strAsInt s)).map fun n => (n, match src with | .jsonKey => .lax | .strings => .strict)

/-- `validate_str`, `src/input/input_json.rs:412-424`, `src/input/input_string.rs:104-113`. -/
def Source.str (_src : Source) (_strict : Bool) (s : List Char) : Option (List Char × Exact) := some (s, .strict)

/-- `require_exact`, `src/input/return_enums.rs:50-52`. -/
def requireExact : Option (γ × Exact) → Option γ
  | some (v, .exact) => some v
  | _ => none

/-- What `LiteralLookup::validate` asks of text, `src/validators/literal.rs:104-142`; `x` is the Python `str` made of it
by `to_object`. `as_python` is `None`, so a string need not be exact. -/
def LitInput.ofText (src : Source) (s : List Char) (x : α) : LitInput α where
  bool := src.bool true s
  int := requireExact (src.int true s)
  str := (src.str true s).map Prod.fst
  obj := x

/-- What `EnumValidator` asks of text, `src/validators/enum_.rs:99-161`; `float` is `str_as_float` as a Python float,
`src/input/input_json.rs:444-446`, `src/input/input_string.rs:143-148`. -/
def EnumInput.ofText (float : List Char → Option α) (src : Source) (s : List Char) (x : α) : EnumInput α :=
  { LitInput.ofText src s x with
    py := none
    anyInt := fun strict => (src.int strict s).map Prod.fst
    anyStr := fun strict => (src.str strict s).map Prod.fst
    anyFloat := fun _ => float s
    isStr := false
    isInt := false
    isFloat := false }

end PC.Lit
