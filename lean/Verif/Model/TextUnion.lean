import Verif.Model.Union

/-
Model of unions in smart mode whose members are scalars, given text: as a value in JSON (`JsonValue::Str`,
`src/input/input_json.rs:110-370`), as a key of a JSON object (`impl Input for str`, `src/input/input_json.rs:372-520`),
or in `validate_strings` (`src/input/input_string.rs:104-255`). What is read from a text is a parameter: the same functions
of `src/input/shared.rs` and `src/input/datetime.rs` in all three.
-/

namespace PC.TextUnion
open PC.Union

/-- Where the text stands. -/
inductive Src where
  | jsonValue
  | jsonKey
  | strings
  deriving DecidableEq, Repr

/-- The scalar schemas with an `Input` method of their own, `src/input/input_abstract.rs:80-250`. -/
inductive Scalar where
  | str | bytes | bool | int | float | decimal | date | time | datetime | timedelta | complex
  deriving DecidableEq, Repr

/-- What is read from a text: nothing, a value, or, for dates and datetimes, a value of the other of the two that was
converted (`date_from_datetime`, `src/validators/date.rs:49-56`; `datetime_from_date`,
`src/validators/datetime.rs:69-76`). -/
inductive Reading (α : Type) where
  | no
  | direct (v : α)
  | other (v : α)

/-- The `ValidationMatch` of the methods of `Input`, or `none` if they refuse text: `src/input/input_json.rs:117,132,142,161,
181,192,282,293,319,334,348` for values, `src/input/input_json.rs:422-520` for keys, `src/input/input_string.rs:110,122,131,
138,145,152,206,218,230,242,249`. Only values look at the mode. -/
def matchOf : Src → Bool → Scalar → Option Exactness
  | .jsonValue, strict, .bool => if strict then none else some .lax
  | .jsonValue, strict, .int => if strict then none else some .lax
  | .jsonValue, strict, .float => if strict then none else some .lax
  | .jsonValue, _, _ => some .strict
  | .jsonKey, _, .str => some .strict
  | .jsonKey, _, .bytes => some .strict
  | .jsonKey, _, .complex => some .strict
  | .jsonKey, _, _ => some .lax
  | .strings, _, _ => some .strict

/-- The validator of a scalar without constraints, `unpack`ing the match, e.g. `src/validators/int.rs:64-73`,
`src/validators/date.rs:42-57`, `src/validators/datetime.rs:62-77`. The error says nothing more than its type. -/
def run {α : Type} (src : Src) (strict : Bool) (read : Scalar → Reading α) (s : Scalar) : Validator α α := fun input st =>
  match matchOf src strict s with
  | none => (.error (ValError.new (.other "type") input), st)
  | some e =>
    match read s with
    | .direct v => (.ok v, st.floorExactness e)
    | .other v =>
      if strict then (.error (ValError.new (.other "parsing") input), st)
      else (.ok v, st.floorExactness .lax)
    | .no =>
      (.error (ValError.new (.other "parsing") input),
        if !strict && (s == .date || s == .datetime) then st.floorExactness .lax else st)

/-- `UnionValidator::validate_smart`, `src/validators/union.rs:102-182`, with scalars as members; `read` is what each of
them reads from the text. -/
def validateText {α : Type} (src : Src) (strict : Bool) (read : Scalar → Reading α) (members : List Scalar) :
    Validator α α :=
  validateSmart (members.map fun s => ⟨"", none, run src strict read s⟩) none

end PC.TextUnion
