import Verif.Model.State

/-
Models of the validators that only combine other validators: nullable, chain, lax-or-strict,
json-or-python, custom-error, functions, defaults, and of the entry points of
`SchemaValidator`.
-/

namespace PC.Comb
variable {α : Type}

/-- `NullableValidator::validate`, `src/validators/nullable.rs:36-46`.  `isNone`/`noneV` are the
test for and the value of Python's `None`. -/
def nullable (isNone : α → Bool) (noneV : α) (inner : Validator α α) : Validator α α :=
  fun input st => if isNone input then (.ok noneV, st) else inner input st

/-- The `try_fold` of `ChainValidator::validate`, `src/validators/chain.rs:83`. -/
def chainRest : List (Validator α α) → α → VState α → ValResult α α × VState α
  | [], v, st => (.ok v, st)
  | s :: ss, v, st =>
    let r := s v st
    match r.1 with
    | .ok w => chainRest ss w r.2
    | .error e => (.error e, r.2)

/-- `ChainValidator::validate`, `src/validators/chain.rs:73-84`.  `None` is the panic of
`unwrap` on an empty step list (excluded when the schema is built, `chain.rs:36-37`). -/
def chain : List (Validator α α) → α → VState α → Option (ValResult α α × VState α)
  | [], _, _ => none
  | s :: ss, input, st =>
    let r := s input st
    match r.1 with
    | .ok v => some (chainRest ss v r.2)
    | .error e => some (.error e, r.2)

/-- A chain schema step: an ordinary schema or a nested chain,
`src/validators/chain.rs:57-68`. -/
inductive ChainStep (α : Type) where
  | one (v : Validator α α)
  | nested (steps : List (ChainStep α))

/-- A built validator that is either a chain or anything else, as distinguished by
`src/validators/chain.rs:63`. -/
inductive Built (α : Type) where
  | chain (steps : List (Validator α α))
  | other (v : Validator α α)

/-- `if let CombinedValidator::Chain(c) = validator { c.steps } else { vec![validator] }`,
`src/validators/chain.rs:62-67`. -/
def Built.steps : Built α → List (Validator α α)
  | .chain ss => ss
  | .other v => [v]

/-- The match on the number of steps, `src/validators/chain.rs:36-51`; `none` is the schema
error for an empty chain. -/
def mkChain : List (Validator α α) → Option (Built α)
  | [] => none
  | [v] => some (.other v)
  | ss => some (.chain ss)

mutual
/-- `ChainValidator::build` (and `build_validator` for a step that is not a chain),
`src/validators/chain.rs:22-53`. -/
def buildStep : ChainStep α → Option (Built α)
  | .one v => some (.other v)
  | .nested ss => (buildSteps ss).bind mkChain
/-- The collection and flattening of the steps, `src/validators/chain.rs:27-34`. -/
def buildSteps : List (ChainStep α) → Option (List (Validator α α))
  | [] => some []
  | s :: ss => (buildStep s).bind fun b => (buildSteps ss).map fun rest => b.steps ++ rest
end

/-- Running a built validator. -/
def Built.run : Built α → α → VState α → Option (ValResult α α × VState α)
  | .chain ss, input, st => PC.Comb.chain ss input st
  | .other v, input, st => some (v input st)

/-- `LaxOrStrictValidator::validate`, `src/validators/lax_or_strict.rs:59-79`. -/
def laxOrStrict (strict : Bool) (lax strictV : Validator α α) : Validator α α :=
  fun input st =>
    if st.strictOr strict then strictV input st
    else if st.exactness.isSome then
      let r := strictV input st
      match r.1 with
      | .ok v => (.ok v, r.2)
      | .error _ => lax input (r.2.floorExactness .lax)
    else lax input st

/-- `InputType`, `src/input/input_abstract.rs:17-22`. -/
inductive InputType where
  | python
  | json
  | string
  deriving DecidableEq, Repr

/-- `JsonOrPython::validate`, `src/validators/json_or_python.rs:52-62`; the input type is part of
`Extra` in the code and a parameter here. -/
def jsonOrPython (t : InputType) (json python : Validator α α) : Validator α α :=
  match t with
  | .python => python
  | _ => json

/-- `CustomErrorValidator::validate`, `src/validators/custom_error.rs:91-100`. -/
def customError (t : ErrType) (inner : Validator α α) : Validator α α := fun input st =>
  let r := inner input st
  match r.1 with
  | .ok v => (.ok v, r.2)
  | .error _ => (.error (ValError.new t input), r.2)

/-! ### Python exceptions -/

/-- A Python exception as `convert_err` (`src/validators/function.rs:503-524`) classifies it.
For `valueError`/`assertionError`, `str` is the outcome of calling `str()` on it: an error of
that call is what gets raised instead. -/
inductive PyExc (α : Type) where
  | customError (t : ErrType)
  | knownError (t : ErrType)
  | validationError (lines : List (LineError α))
  | valueError (str : Except PyErr String)
  | assertionError (str : Except PyErr String)
  | pydanticOmit
  | pydanticUseDefault
  | other (e : PyErr)
  deriving DecidableEq, Repr

/-- `py_err_string!`, `src/validators/function.rs:483-499`. -/
def pyErrString (t : String) (str : Except PyErr String) (input : α) : ValError α :=
  match str with
  | .ok _ => ValError.new (.other t) input
  | .error e => .internal e

/-- `convert_err`, `src/validators/function.rs:503-524`; `into_val_error` of a `ValidationError`
is `src/errors/validation_exception.rs:250-254`. -/
def convertErr (err : PyExc α) (input : α) : ValError α :=
  match err with
  | .customError t => ValError.new t input
  | .knownError t => ValError.new t input
  | .validationError lines => .lineErrors lines
  | .valueError s => pyErrString "value_error" s input
  | .assertionError s => pyErrString "assertion_error" s input
  | .pydanticOmit => .omitted
  | .pydanticUseDefault => .useDefault
  | .other e => .internal e

/-- `ValidationError::from_val_error`, `src/errors/validation_exception.rs:50-93`, without the
`validation_error_cause` decoration; `omit_error`/`use_default_error` are
`validation_exception.rs:108-114`.  An internal error re-raised here is assumed not to be one of
the classes `convert_err` singles out. -/
def fromValError (e : ValError α) (outer : Option LocItem) : PyExc α :=
  match e with
  | .lineErrors es =>
    match outer with
    | some l => .validationError (es.map (·.withOuterLocation l))
    | none => .validationError es
  | .internal e => .other e
  | .omitted => .other ⟨"SchemaError: Uncaught Omit error"⟩
  | .useDefault => .other ⟨"SchemaError: Uncaught UseDefault error"⟩

/-! ### Function validators -/

/-- A Python function of one argument (and an `info` object built from `Extra`). -/
abbrev PyFunc (α : Type) := Extra α → α → Except (PyExc α) α

/-- `FunctionBeforeValidator::_validate`, `src/validators/function.rs:95-116`. -/
def functionBefore (f : PyFunc α) (inner : Validator α α) : Validator α α := fun input st =>
  match f st.extra input with
  | .error e => (.error (convertErr e input), st)
  | .ok v => inner v st

/-- `FunctionAfterValidator::_validate`, `src/validators/function.rs:169-190`. -/
def functionAfter (f : PyFunc α) (inner : Validator α α) : Validator α α := fun input st =>
  let r := inner input st
  match r.1 with
  | .error e => (.error e, r.2)
  | .ok v =>
    match f r.2.extra v with
    | .ok w => (.ok w, r.2)
    | .error e => (.error (convertErr e input), r.2)

/-- `FunctionPlainValidator::validate`, `src/validators/function.rs:266-285`. -/
def functionPlain (f : PyFunc α) : Validator α α := fun input st =>
  match f st.extra input with
  | .ok w => (.ok w, st)
  | .error e => (.error (convertErr e input), st)

/-- A Python wrap function, as the sequence of calls it makes to its handler: it ends, or calls
the handler with a value (and an optional outer location) and continues with the outcome. -/
inductive WrapProg (α : Type) where
  | done (r : Except (PyExc α) α)
  | call (x : α) (outer : Option LocItem) (k : Except (PyExc α) α → WrapProg α)

/-- The state kept by `InternalValidator`, `src/validators/generator.rs:217-232`. -/
structure Internal (α : Type) where
  data : Option (List (String × α))
  strict : Option Bool
  fromAttributes : Option Bool
  guard : Guard.State
  exactness : Option Exactness

/-- `InternalValidator::new`, `src/validators/generator.rs:241-264`. -/
def Internal.new (st : VState α) : Internal α :=
  ⟨st.extra.data, st.extra.strict, st.extra.fromAttributes, st.guard, st.exactness⟩

/-- The `ValidationState` built by `InternalValidator::validate`,
`src/validators/generator.rs:312-325`. -/
def Internal.state (h : Internal α) : VState α :=
  { VState.new { strict := h.strict, fromAttributes := h.fromAttributes, byAlias := none,
                 byName := none, data := h.data, fieldName := none } h.guard (.ofBool false) with
    exactness := h.exactness }

/-- `InternalValidator::validate`, `src/validators/generator.rs:306-339`. -/
def Internal.validate (inner : Validator α α) (h : Internal α) (input : α)
    (outer : Option LocItem) : Except (PyExc α) α × Internal α :=
  let r := inner input h.state
  let h' := { h with guard := r.2.guard, exactness := r.2.exactness }
  match r.1 with
  | .ok v => (.ok v, h')
  | .error e => (.error (fromValError e outer), h')

/-- Running the wrap function against the handler. -/
def runWrap (inner : Validator α α) : WrapProg α → Internal α → Except (PyExc α) α × Internal α
  | .done r, h => (r, h)
  | .call x outer k, h =>
    let r := h.validate inner x outer
    runWrap inner (k r.1) r.2

/-- `FunctionWrapValidator::validate`, `src/validators/function.rs:365-385`.  The guard of the
handler is a clone (`generator.rs:257`), so the caller's guard is unchanged. -/
def functionWrap (prog : Extra α → α → WrapProg α) (inner : Validator α α) : Validator α α :=
  fun input st =>
    let r := runWrap inner (prog st.extra input) (Internal.new st)
    let st' := { st with exactness := r.2.exactness }
    match r.1 with
    | .ok v => (.ok v, st')
    | .error e => (.error (convertErr e input), st')

/-! ### Defaults -/

/-- `OnError`, `src/validators/with_default.rs:80-85`. -/
inductive OnError where
  | raise
  | omitIt
  | default
  deriving DecidableEq, Repr

/-- What a default factory is called with, `src/validators/with_default.rs:50-68`: nothing, a dict, or an empty tuple. -/
inductive FactoryArg (α : Type) where
  | nothing
  | dict (data : List (String × α))
  | emptyTuple

/-- `DefaultType`, `src/validators/with_default.rs:24-29`. -/
inductive DefaultType (α : Type) where
  | absent
  | value (v : α)
  | factory (takesData : Bool) (call : FactoryArg α → Except PyErr α)

/-- The argument of the factory, `src/validators/with_default.rs:54-62`.  `({},)` (line 58) is Rust: a block without a value, which
is the unit and becomes Python's empty tuple. -/
def factoryArg (takesData : Bool) (data : Option (List (String × α))) : FactoryArg α :=
  if takesData then
    match data with
    | some data => .dict data
    | none => .emptyTuple
  else .nothing

/-- `DefaultType::default_value`, `src/validators/with_default.rs:50-68`. -/
def DefaultType.get (d : DefaultType α) (data : Option (List (String × α))) :
    Except PyErr (Option α) :=
  match d with
  | .value v => .ok (some v)
  | .factory takes call => (call (factoryArg takes data)).map some
  | .absent => .ok none

/-- `WithDefaultValidator`, `src/validators/with_default.rs:87-96`.  `copy` is
`copy.deepcopy`. -/
structure WithDefault (α : Type) where
  default : DefaultType α
  onError : OnError
  inner : Validator α α
  validateDefault : Bool
  copyDefault : Bool
  copy : α → Except PyErr α
  isUndefined : α → Bool

/-- How a call to the default machinery can end: a result, a panic (`unwrap` on `None`), or not
within the given number of nested calls (unbounded recursion when for no number). -/
inductive Run (α β : Type) where
  | done (r : ValResult α β) (st : VState α)
  | panic
  | outOfFuel

mutual
/-- `WithDefaultValidator::validate`, `src/validators/with_default.rs:154-175`.  The fuel bounds
the nesting of the mutual recursion with `default_value`. -/
def WithDefault.validate (w : WithDefault α) : Nat → α → VState α → Run α α
  | 0, _, _ => .outOfFuel
  | n + 1, input, st =>
    if w.isUndefined input then
      match w.defaultValue n none st with
      | .done (.ok (some v)) st => .done (.ok v) st
      | .done (.ok none) _ => .panic
      | .done (.error e) st => .done (.error e) st
      | .panic => .panic
      | .outOfFuel => .outOfFuel
    else
      let r := w.inner input st
      match r.1 with
      | .ok v => .done (.ok v) r.2
      | .error e =>
        let useDefault : Run α α :=
          match w.defaultValue n none r.2 with
          | .done (.ok (some v)) st => .done (.ok v) st
          | .done (.ok none) st => .done (.error e) st
          | .done (.error e') st => .done (.error e') st
          | .panic => .panic
          | .outOfFuel => .outOfFuel
        match e with
        | .useDefault => useDefault
        | e =>
          match w.onError with
          | .raise => .done (.error e) r.2
          | .default => useDefault
          | .omitIt => .done (.error .omitted) r.2
/-- `WithDefaultValidator::default_value`, `src/validators/with_default.rs:177-208`. -/
def WithDefault.defaultValue (w : WithDefault α) : Nat → Option LocItem → VState α → Run α (Option α)
  | 0, _, _ => .outOfFuel
  | n + 1, outer, st =>
    match w.default.get st.extra.data with
    | .error e => .done (.error (.internal e)) st
    | .ok none => .done (.ok none) st
    | .ok (some stored) =>
      match (if w.copyDefault then w.copy stored else .ok stored) with
      | .error e => .done (.error (.internal e)) st
      | .ok dft =>
        if w.validateDefault then
          match w.validate n dft st with
          | .done (.ok v) st => .done (.ok (some v)) st
          | .done (.error e) st =>
            .done (.error (match outer with
              | some l => e.withOuterLocation l
              | none => e)) st
          | .panic => .panic
          | .outOfFuel => .outOfFuel
        else .done (.ok (some dft)) st
end

/-! ### Entry points -/

/-- What a Python caller sees: a value, a `ValidationError` with its line errors, or another
exception. -/
inductive Api (α β : Type) where
  | returns (v : β)
  | validationError (lines : List (LineError α))
  | raises (e : PyErr)
  deriving DecidableEq, Repr

/-- `Extra::new`, `src/validators/mod.rs:695-719`. -/
def Extra.new (strict fromAttributes byAlias byName : Option Bool) : Extra α :=
  { strict, fromAttributes, byAlias, byName, data := none, fieldName := none }

/-- `SchemaValidator::_validate`, `src/validators/mod.rs:386-415`. -/
def apiState (strict fromAttributes byAlias byName : Option Bool) (allowPartial : PartialMode) :
    VState α :=
  VState.new (Extra.new strict fromAttributes byAlias byName) Guard.State.init allowPartial

/-- `prepare_validation_err`, `src/validators/mod.rs:447-457`. -/
def prepareErr (e : ValError α) : Api α α :=
  match e with
  | .lineErrors es => .validationError es
  | .internal e => .raises e
  | .omitted => .raises ⟨"SchemaError: Uncaught Omit error"⟩
  | .useDefault => .raises ⟨"SchemaError: Uncaught UseDefault error"⟩

/-- `SchemaValidator::validate_python`, `src/validators/mod.rs:169-195`. -/
def validatePython (v : Validator α α) (strict fromAttributes byAlias byName : Option Bool)
    (allowPartial : PartialMode) (input : α) : Api α α :=
  match (v input (apiState strict fromAttributes byAlias byName allowPartial)).1 with
  | .ok r => .returns r
  | .error e => prepareErr e

/-- `SchemaValidator::isinstance_python`, `src/validators/mod.rs:199-229`. -/
def isinstancePython (v : Validator α α) (strict fromAttributes byAlias byName : Option Bool)
    (input : α) : Api α Bool :=
  match (v input (apiState strict fromAttributes byAlias byName (.ofBool false))).1 with
  | .ok _ => .returns true
  | .error (.internal e) => .raises e
  | .error .omitted => .raises ⟨"SchemaError: Uncaught Omit error"⟩
  | .error .useDefault => .raises ⟨"SchemaError: Uncaught UseDefault error"⟩
  | .error (.lineErrors _) => .returns false

/-- `schema_or_config`, `src/build_tools.rs:14-30` (type errors of the option values aside). -/
def schemaOrConfig {β : Type} (schema config : Option β) : Option β :=
  match schema with
  | some v => some v
  | none => config

/-- `is_strict`, `src/build_tools.rs:43-46`. -/
def isStrict (schema config : Option Bool) : Bool := (schemaOrConfig schema config).getD false

end PC.Comb
