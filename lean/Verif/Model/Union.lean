import Verif.Model.State

/-
Model of `src/validators/union.rs`.
-/

namespace PC.Union
variable {α : Type}

/-- A union member: validator, its `get_name()` and its optional label,
`src/validators/union.rs:60-73`. -/
structure Choice (α : Type) where
  name : String
  label : Option String
  run : Validator α α

/-- `ChoiceLineErrors`, `src/validators/union.rs:228-232`; the choice itself is represented by
the label finally used, `label.unwrap_or(choice.get_name())` (`union.rs:271`). -/
structure ChoiceErrors (α : Type) where
  caseLabel : String
  lines : List (LineError α)

/-- `MaybeErrors`, `src/validators/union.rs:234-237`.  A custom error is represented by the
error type it produces. -/
inductive MaybeErrors (α : Type) where
  | custom (t : ErrType)
  | errors (es : List (ChoiceErrors α))

/-- `MaybeErrors::new`, `src/validators/union.rs:240-245`. -/
def MaybeErrors.new : Option ErrType → MaybeErrors α
  | some t => .custom t
  | none => .errors []

/-- `MaybeErrors::push`, `src/validators/union.rs:247-256`. -/
def MaybeErrors.push (m : MaybeErrors α) (c : Choice α) (lines : List (LineError α)) :
    MaybeErrors α :=
  match m with
  | .custom t => .custom t
  | .errors es => .errors (es ++ [⟨c.label.getD c.name, lines⟩])

/-- `MaybeErrors::into_val_error`, `src/validators/union.rs:258-279`;
`CustomError::as_val_error` (`src/validators/custom_error.rs:52-57`) yields one line error at
the input. -/
def MaybeErrors.intoValError (m : MaybeErrors α) (input : α) : ValError α :=
  match m with
  | .custom t => ValError.new t input
  | .errors es =>
    .lineErrors (es.flatMap fun c => c.lines.map (·.withOuterLocation (.s c.caseLabel)))

/-- `best_match`, `src/validators/union.rs:113`. -/
structure Best (α : Type) where
  value : α
  exactness : Exactness
  fieldsSet : Option Nat

/-- The comparison of `src/validators/union.rs:143-151`: is the new success better? -/
def isBetter (best : Option (Best α)) (newE : Exactness) (newF : Option Nat) : Bool :=
  match best with
  | none => true
  | some b =>
    match b.fieldsSet, newF with
    | some cur, some new =>
      if cur ≠ new then decide (cur < new) else decide (b.exactness.rank < newE.rank)
    | _, _ => decide (b.exactness.rank < newE.rank)

/-- Result of the loop of `validate_smart`: left early with a final result and state, or ran
to the end with the best match, the collected errors and the state. -/
inductive LoopEnd (α : Type) where
  | returned (r : ValResult α α) (st : VState α)
  | finished (best : Option (Best α)) (errors : MaybeErrors α) (st : VState α)

/-- The `for` loop of `validate_smart`, `src/validators/union.rs:115-166`. -/
def smartLoop (oldE : Option Exactness) (oldF : Option Nat) (input : α) :
    List (Choice α) → Option (Best α) → MaybeErrors α → VState α → LoopEnd α
  | [], best, errors, st => .finished best errors st
  | c :: cs, best, errors, st =>
    let r := c.run input { st with exactness := some .exact, fieldsSetCount := none }
    let st1 := r.2
    match r.1 with
    | .ok v =>
      match st1.exactness, st1.fieldsSetCount with
      | some .exact, none =>
        .returned (.ok v) { st1 with exactness := oldE, fieldsSetCount := oldF }
      | e, f =>
        let newE := e.getD .lax
        if isBetter best newE f then
          smartLoop oldE oldF input cs (some ⟨v, newE, f⟩) errors st1
        else
          smartLoop oldE oldF input cs best errors st1
    | .error (.lineErrors lines) =>
      smartLoop oldE oldF input cs best (if best.isNone then errors.push c lines else errors) st1
    | .error e => .returned (.error e) st1

/-- `UnionValidator::validate_smart`, `src/validators/union.rs:102-182`. -/
def validateSmart (choices : List (Choice α)) (customError : Option ErrType) : Validator α α :=
  fun input st =>
    match smartLoop st.exactness st.fieldsSetCount input choices none (.new customError) st with
    | .returned r st1 => (r, st1)
    | .finished best errors st1 =>
      let st2 := { st1 with exactness := st.exactness, fieldsSetCount := st.fieldsSetCount }
      match best with
      | some b =>
        let st3 := st2.floorExactness b.exactness
        let st4 := match b.fieldsSet with
          | some n => st3.addFieldsSet n
          | none => st3
        (.ok b.value, st4)
      | none => (.error (errors.intoValError input), st2)

/-- The loop of `validate_left_to_right`, `src/validators/union.rs:192-199`. -/
def leftToRightLoop (input : α) :
    List (Choice α) → MaybeErrors α → VState α → ValResult α α × VState α
  | [], errors, st => (.error (errors.intoValError input), st)
  | c :: cs, errors, st =>
    let r := c.run input st
    match r.1 with
    | .error (.lineErrors lines) => leftToRightLoop input cs (errors.push c lines) r.2
    | other => (other, r.2)

/-- `UnionValidator::validate_left_to_right`, `src/validators/union.rs:184-200`. -/
def validateLeftToRight (choices : List (Choice α)) (customError : Option ErrType) :
    Validator α α :=
  fun input st => leftToRightLoop input choices (.new customError) st

/-- `Discriminator`, `src/common/union.rs:9-13`.  For a lookup key, `find strict fromAttributes`
stands for `validate_model_fields` followed by `get_item` (`union.rs:356-362`, modelled in
`LookupKey.lean`): a validation error or exception, no tag, or a tag.  For a function, `call` is
the Python call (an exception is `ValError::InternalErr`) and `isNone` recognises `None`. -/
inductive Discriminator (α : Type) where
  | lookupKey (find : (strict fromAttributes : Bool) → α → ValResult α (Option α))
  | function (call : α → ValResult α α) (isNone : α → Bool)

/-- `TaggedUnionValidator`, `src/validators/union.rs:283-291`.  `lookup` is
`LiteralLookup::validate` (modelled in `Literal.lean`): `none` is a miss *or an error of the
lookup* (`union.rs:389` ignores both); on a hit it returns the registered key (as a location
item) and validator. -/
structure Tagged (α : Type) where
  discriminator : Discriminator α
  fromAttributes : Bool
  lookup : α → Option (LocItem × Validator α α)
  tagString : α → String
  customError : Option ErrType
  tagsRepr : String
  discriminatorRepr : String

/-- `tag_not_found`, `src/validators/union.rs:409-420`. -/
def Tagged.tagNotFound (u : Tagged α) (input : α) : ValError α :=
  match u.customError with
  | some t => ValError.new t input
  | none => ValError.new (.unionTagNotFound u.discriminatorRepr) input

/-- `find_call_validator`, `src/validators/union.rs:382-407`. -/
def Tagged.findCallValidator (u : Tagged α) (tag : α) : Validator α α := fun input st =>
  match u.lookup tag with
  | some (item, validator) =>
    let r := validator input st
    match r.1 with
    | .ok v => (.ok v, r.2)
    | .error e => (.error (e.withOuterLocation item), r.2)
  | none =>
    match u.customError with
    | some t => (.error (ValError.new t input), st)
    | none =>
      (.error (ValError.new (.unionTagInvalid u.discriminatorRepr (u.tagString tag) u.tagsRepr)
        input), st)

/-- `TaggedUnionValidator::validate`, `src/validators/union.rs:347-374`. -/
def Tagged.validate (u : Tagged α) : Validator α α := fun input st =>
  match u.discriminator with
  | .lookupKey find =>
    match find (st.strictOr false) (st.extra.fromAttributes.getD u.fromAttributes) input with
    | .error e => (.error e, st)
    | .ok none => (.error (u.tagNotFound input), st)
    | .ok (some tag) => u.findCallValidator tag input st
  | .function call isNone =>
    match call input with
    | .error e => (.error e, st)
    | .ok tag =>
      if isNone tag then (.error (u.tagNotFound input), st)
      else u.findCallValidator tag input st

end PC.Union
