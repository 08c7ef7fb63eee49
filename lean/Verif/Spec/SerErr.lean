import Verif.Model.SerErr

/-
What the message of a failed serialisation is, said without the way it took.
-/

namespace PC.SerErr

/-- The headings put before the message: one for `to_json` itself, and two more for each `json` schema on the way. -/
def headings : Nat → Text
  | 0 => "Error serializing to JSON: ".toList
  | n + 1 => "Error serializing to JSON: PydanticSerializationError: ".toList ++ headings n

/-- The `json` schemas on the way that write text of their own. -/
def texts (roundTrip : Bool) (ls : List Layer) : Nat := if roundTrip then ls.count .json else 0

/-- Whether the place is in a key of a dict, and not in a text of its own within that key. -/
def inKey (roundTrip : Bool) : List Layer → Bool
  | [] => false
  | .key :: ls => if roundTrip && ls.contains .json then inKey roundTrip ls else true
  | _ :: ls => inKey roundTrip ls

/-- What becomes of an exception that is turned into text `n` times: none, it is raised as it is. -/
def after : Nat → Exc → Exc
  | 0, e => e
  | n + 1, e => .serError (headings n ++ display e)

/-- The headings before the message for a value of unknown type: none at the top. -/
def unknownHeadings : Nat → Text
  | 0 => []
  | n + 1 => "Error serializing to JSON: PydanticSerializationError: ".toList ++ unknownHeadings n

/-- How often an error of ours is turned into text before `to_json` raises it. -/
def turns (roundTrip : Bool) (ls : List Layer) : Nat := texts roundTrip ls + (inKey roundTrip ls).toNat

/-- The text of an exception begins with neither of the markers, as that of a class with an ordinary name does. -/
def Ordinary (e : Exc) : Prop :=
  ¬ unexpectedMarker <+: display e ∧ ¬ serErrorMarker <+: display e

/-- The value as a message shows it. -/
def shownAs (v : Shown) : Text := " [input_value=".toList ++ v.repr ++ ", input_type=".toList ++ v.typeName ++ "]".toList

/-- The type expected as a message names it. -/
def expectedAs (t : Text) : Text := "Expected `".toList ++ t ++ "`".toList

/-- The full claim: what `to_json` raises is what `to_python(mode='json')` raises. -/
def SameRaised (roundTrip : Bool) (ls : List Layer) (o : Origin) : Prop :=
  toJson roundTrip ls o = toPython roundTrip ls o

end PC.SerErr
