import Verif.Model.Report
import Verif.Model.IntParse

/-
Model of the cause of a `ValidationError` (configuration `validation_error_cause`):
`src/errors/validation_exception.rs` 51-91 and 115-199. Python 3.11 and later.
-/

namespace PC.Cause
open PC.Report (locText)
open PC.Infer (Text)

/-- The type of a line error, as far as its cause goes: `ErrorType::AssertionError` and `ErrorType::ValueError`
with the exception a user's function raised, as a number that stands for the object (none if the error was not made
from an exception), and all others: `src/errors/validation_exception.rs` 118-126. -/
inductive Kind where
  | assertion (err : Option Nat)
  | value (err : Option Nat)
  | other
deriving DecidableEq, Repr

/-- `PyLineError`: `src/errors/validation_exception.rs` 423-429, without input and message. -/
structure Line where
  location : Location
  kind : Kind
deriving DecidableEq, Repr

/-- The notes (`__notes__`) of exceptions, each an object that lives on after the error:
`src/errors/validation_exception.rs` 143. -/
abbrev Notes := Nat → List Text

/-- `BaseException.add_note`: `src/errors/validation_exception.rs` 143. -/
def addNote (notes : Notes) (e : Nat) (t : Text) : Notes :=
  fun e' => if e' = e then notes e ++ [t] else notes e'

/-- The text of the note: `src/errors/validation_exception.rs` 128-136 and the line break of 143. -/
def noteText (l : Location) : Text :=
  '\n' :: match l with
  | .empty => "Pydantic: cause of loc: root".toList
  | l => "Pydantic: cause of loc: ".toList ++ IntParse.trim (locText l)

/-- The loop over the line errors: `src/errors/validation_exception.rs` 117-147. `takes e` is whether `add_note` of
the exception succeeds (a class may define its own). -/
def collect (takes : Nat → Bool) : List Line → Notes → List Nat × Notes
  | [], notes => ([], notes)
  | l :: ls, notes =>
    match l.kind with
    | .assertion (some e) | .value (some e) =>
      if takes e then
        let r := collect takes ls (addNote notes e (noteText l.location))
        (e :: r.1, r.2)
      else collect takes ls notes
    | _ => collect takes ls notes

/-- `maybe_add_cause`: `src/errors/validation_exception.rs` 115-199. The cause is the group of exceptions. -/
def maybeAddCause (takes : Nat → Bool) (ls : List Line) (notes : Notes) : Option (List Nat) × Notes :=
  let r := collect takes ls notes
  if r.1.isEmpty then (none, r.2) else (some r.1, r.2)

/-- A `ValidationError`: `src/errors/validation_exception.rs` 30-38, with its `__cause__`. -/
structure VErr where
  lines : List Line
  cause : Option (List Nat)

/-- `ValidationError::from_val_error` for line errors: `src/errors/validation_exception.rs` 51-91. -/
def fromLines (takes : Nat → Bool) (withCause : Bool) (outer : Option LocItem) (ls : List Line) (notes : Notes) :
    VErr × Notes :=
  let ls := match outer with
    | some o => ls.map (fun l => { l with location := l.location.withOuter o })
    | none => ls
  if withCause then
    let r := maybeAddCause takes ls notes
    (⟨ls, r.1⟩, r.2)
  else (⟨ls, none⟩, notes)

/-- A wrap function that lets the error of its handler pass, in a field `f` of a model: the handler makes a
`ValidationError` (`src/validators/generator.rs` 305-340, `src/validators/function.rs` 425-433), of which the line
errors are taken (`src/validators/function.rs` 503-524), the field puts its name before their locations, and the
validator makes the final `ValidationError` (`src/validators/mod.rs` 447-457). -/
def wrapped (takes : Nat → Bool) (withCause : Bool) (f : LocItem) (ls : List Line) (notes : Notes) : VErr × Notes :=
  let r := fromLines takes withCause none ls notes
  fromLines takes withCause (some f) r.1.lines r.2

end PC.Cause
