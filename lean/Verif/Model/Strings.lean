import Verif.Model.IntParse

/-
Model of `src/validators/string.rs`.  A string is a list of characters.
-/

namespace PC.Str
open PC.Num PC.IntParse

/-- `StrConstrainedValidator`, `src/validators/string.rs:67-77`.  `pattern` is `Pattern::is_match`
(`src/validators/string.rs:280-287`), `lower` and `upper` are `str::to_lowercase` and
`str::to_uppercase`; all three are external. -/
structure StrConstrained where
  pattern : Option (List Char → Bool)
  maxLength : Option Nat
  minLength : Option Nat
  stripWhitespace : Bool
  toLower : Bool
  toUpper : Bool
  lower : List Char → List Char
  upper : List Char → List Char

/-- The final conversion, `src/validators/string.rs:137-146`; `orig` is the input string. -/
def StrConstrained.convert (v : StrConstrained) (orig s : List Char) : List Char :=
  if v.toLower then v.lower s
  else if v.toUpper then v.upper s
  else if v.stripWhitespace then s
  else orig

/-- The pattern test and the end of `validate`, `src/validators/string.rs:125-147`. -/
def StrConstrained.afterLength (v : StrConstrained) (orig s : List Char) : Checked (List Char) :=
  if (v.pattern.map fun p => p s) = some false then .err (.other "string_pattern_mismatch")
  else .ok (v.convert orig s)

/-- `StrConstrainedValidator::validate` on the string the input was read as,
`src/validators/string.rs:88-147`. -/
def StrConstrained.check (v : StrConstrained) (orig : List Char) : Checked (List Char) :=
  let s := if v.stripWhitespace then trim orig else orig
  let n := s.length
  if (v.minLength.map fun m => decide (n < m)) = some true then .err (.other "string_too_short")
  else if (v.maxLength.map fun m => decide (n > m)) = some true then .err (.other "string_too_long")
  else v.afterLength orig s

end PC.Str
