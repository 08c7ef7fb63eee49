/-
Shared vocabulary of the model: error locations, line errors, validation results,
exactness and the validation state.

`α` is the type of values (Python objects / JSON values).  Inputs and outputs of
validators are both of type `α`: the model does not distinguish a JSON value from the
Python object built from it unless a module says so.
-/

namespace PC

/-- One item of an error location.  `src/errors/location.rs:15-24` (`LocItem`).
`I(i64)` is modelled by an unbounded `Int`. -/
inductive LocItem where
  | s (v : String)
  | i (v : Int)
  deriving DecidableEq, Repr

/-- `src/errors/location.rs:92-98` (`Location`).  The list is stored reversed
(innermost first), a Rust `Vec::push` appends at the end. -/
inductive Location where
  | empty
  | list (rev : List LocItem)
  deriving DecidableEq, Repr

namespace Location

/-- `src/errors/location.rs:138-142` (`Location::new_some`). -/
def newSome (item : LocItem) : Location := .list [item]

/-- `src/errors/location.rs:144-151` (`Location::with_outer`). -/
def withOuter (l : Location) (item : LocItem) : Location :=
  match l with
  | .list loc => .list (loc ++ [item])
  | .empty => newSome item

/-- `src/errors/location.rs:108-122` (`IntoPyObject for &Location`): the tuple shown to the
user, reversed from the stored vector. -/
def toPy (l : Location) : List LocItem :=
  match l with
  | .list loc => loc.reverse
  | .empty => []

/-- `src/errors/location.rs:172-200` (`TryFrom<Option<&PyAny>> for Location`) for a tuple or
list argument whose items already are location items (the conversion of other Python
objects to location items is not modelled). -/
def ofPy (items : List LocItem) : Location :=
  if items.isEmpty then .empty else .list items.reverse

end Location

/-- The error types the modelled code produces, with the context values they carry.
`src/errors/types.rs:154-434`.  `other` stands for any error type not singled out. -/
inductive ErrType where
  | missing
  | frozenField
  | frozenInstance
  | extraForbidden
  | invalidKey
  | noSuchAttribute (attr : String)
  | recursionLoop
  | tooShort (fieldType : String) (minLength actualLength : Nat)
  | tooLong (fieldType : String) (maxLength : Nat) (actualLength : Option Nat)
  | unionTagNotFound (discriminator : String)
  | unionTagInvalid (discriminator tag expectedTags : String)
  | missingArgument
  | unexpectedKeywordArgument
  | missingKeywordOnlyArgument
  | unexpectedPositionalArgument
  | missingPositionalOnlyArgument
  | multipleArgumentValues
  | iterationError (error : String)
  | setItemNotHashable
  | other (name : String)
  deriving DecidableEq, Repr

/-- `src/errors/line_error.rs:104-109` (`ValLineError`). -/
structure LineError (α : Type) where
  type : ErrType
  loc : Location
  input : α
  deriving DecidableEq, Repr

namespace LineError

/-- `src/errors/line_error.rs:112-118` (`ValLineError::new`). -/
def new {α} (t : ErrType) (input : α) : LineError α := ⟨t, .empty, input⟩

/-- `src/errors/line_error.rs:120-126` (`ValLineError::new_with_loc`). -/
def newWithLoc {α} (t : ErrType) (input : α) (loc : LocItem) : LineError α :=
  ⟨t, .newSome loc, input⟩

/-- `src/errors/line_error.rs:146-149` (`ValLineError::with_outer_location`). -/
def withOuterLocation {α} (e : LineError α) (item : LocItem) : LineError α :=
  { e with loc := e.loc.withOuter item }

end LineError

/-- An exception object that is not a validation error.  Only its identity matters. -/
structure PyErr where
  name : String
  deriving DecidableEq, Repr

/-- `src/errors/line_error.rs:35-40` (`ValError`). -/
inductive ValError (α : Type) where
  | lineErrors (es : List (LineError α))
  | internal (e : PyErr)
  | omitted
  | useDefault
  deriving DecidableEq, Repr

namespace ValError

/-- `src/errors/line_error.rs:73-75` (`ValError::new`). -/
def new {α} (t : ErrType) (input : α) : ValError α := .lineErrors [LineError.new t input]

/-- `src/errors/line_error.rs:77-79` (`ValError::new_with_loc`). -/
def newWithLoc {α} (t : ErrType) (input : α) (loc : LocItem) : ValError α :=
  .lineErrors [LineError.newWithLoc t input loc]

/-- `src/errors/line_error.rs:86-97` (`ValError::with_outer_location`). -/
def withOuterLocation {α} (e : ValError α) (item : LocItem) : ValError α :=
  match e with
  | .lineErrors es => .lineErrors (es.map (·.withOuterLocation item))
  | other => other

end ValError

/-- `ValResult<T>`, `src/errors/line_error.rs:16`. -/
abbrev ValResult (α β : Type) := Except (ValError α) β

instance {ε α : Type} [DecidableEq ε] [DecidableEq α] : DecidableEq (Except ε α)
  | .ok a, .ok b => if h : a = b then isTrue (by rw [h]) else isFalse (by intro e; cases e; exact h rfl)
  | .error a, .error b => if h : a = b then isTrue (by rw [h]) else isFalse (by intro e; cases e; exact h rfl)
  | .ok _, .error _ => isFalse (by intro e; cases e)
  | .error _, .ok _ => isFalse (by intro e; cases e)

/-- `src/validators/validation_state.rs:11-16` (`Exactness`), ordered `Lax < Strict < Exact`. -/
inductive Exactness where
  | lax
  | strict
  | exact
  deriving DecidableEq, Repr

namespace Exactness

/-- The derived order of `src/validators/validation_state.rs:11`. -/
def rank : Exactness → Nat
  | lax => 0
  | strict => 1
  | exact => 2

end Exactness

/-- `jiter::PartialMode` (external crate, three modes); `is_active` is "not off". -/
inductive PartialMode where
  | off
  | on
  | trailingStrings
  deriving DecidableEq, Repr

namespace PartialMode

/-- `PartialMode::is_active` of the `jiter` crate. -/
def isActive : PartialMode → Bool
  | off => false
  | _ => true

/-- `From<bool> for PartialMode` of the `jiter` crate. -/
def ofBool (b : Bool) : PartialMode := if b then .on else .off

end PartialMode

/-- The read-only options of a validation run, `src/validators/mod.rs:672-693` (`Extra`).
`context`, `self_instance`, `cache_str` and `input_type` are not modelled. -/
structure Extra (α : Type) where
  strict : Option Bool := none
  fromAttributes : Option Bool := none
  byAlias : Option Bool := none
  byName : Option Bool := none
  data : Option (List (String × α)) := none
  fieldName : Option String := none
  deriving DecidableEq, Repr

/-- `src/validators/mod.rs:723-736` (`Extra::as_strict`). -/
def Extra.asStrict {α} (e : Extra α) : Extra α := { e with strict := some true }

end PC
