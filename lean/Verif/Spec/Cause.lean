import Verif.Model.Cause

/-
What the cause of a `ValidationError` is meant to be.
-/

namespace PC.Cause
open PC.Report (locItemText)
open PC.Infer (Text)

/-- The exception of a user's function that a line error was made from. -/
def Line.raised (l : Line) : Option Nat :=
  match l.kind with
  | .assertion e => e
  | .value e => e
  | .other => none

/-- The note for an error at the location a user sees as `path`: its items joined by dots, without spaces around. -/
def noteFor (path : Option (List LocItem)) : Text :=
  "\nPydantic: cause of loc: ".toList ++
    match path with
    | none => "root".toList
    | some path => IntParse.trim (List.intercalate ['.'] (path.map locItemText))

/-- The location a user sees; none if there is none. -/
def seen : Location → Option (List LocItem)
  | .empty => none
  | l => some l.toPy

end PC.Cause
