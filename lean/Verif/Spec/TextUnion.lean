import Verif.Model.TextUnion

/-
What C119 says.
-/

namespace PC.TextUnion
open PC.Union

/-- In strict mode a JSON string is no bool, int or float; all else takes text. -/
def refuses (src : Src) (strict : Bool) (s : Scalar) : Bool :=
  src == .jsonValue && strict && (s == .bool || s == .int || s == .float)

/-- The types that text stands for properly: in JSON all but bool, int and float, as a key only str, bytes and complex,
in `validate_strings` all. -/
def proper (src : Src) (s : Scalar) : Bool :=
  match src with
  | .jsonValue => !(s == .bool || s == .int || s == .float)
  | .jsonKey => s == .str || s == .bytes || s == .complex
  | .strings => true

/-- What a member makes of the text, and whether it is a strict match. -/
def takes {α : Type} (src : Src) (strict : Bool) (read : Scalar → Reading α) (s : Scalar) : Option (α × Bool) :=
  if refuses src strict s then none
  else
    match read s with
    | .direct v => some (v, proper src s)
    | .other v => if strict then none else some (v, false)
    | .no => none

/-- The first strict match, else the first match. -/
def pick {α : Type} (l : List (α × Bool)) : Option α := ((l.find? (·.2)).or l.head?).map (·.1)

/-- The full claim of C119: text is given to the same member wherever it stands. -/
def SameEverywhere {α : Type} (members : List Scalar) : Prop :=
  ∀ (src src' : Src) (read : Scalar → Reading α) (input : α) (st : VState α) (v : α),
    (validateText src false read members input st).1 = .ok v → (validateText src' false read members input st).1 = .ok v

end PC.TextUnion
