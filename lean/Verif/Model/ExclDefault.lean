/-
Model of which default `exclude_defaults` compares a field with: `src/serializers/type_serializers/with_default.rs`,
`exclude_default` of `src/serializers/fields.rs`, and the default a missing field gets back.
-/

namespace PC.ExclDefault

variable {α ε σ : Type}

/-- `DefaultType`, `src/validators/with_default.rs:25-29`. Factories may have effects. -/
inductive Default (α ε σ : Type) where
  | none
  | value (d : α)
  | factory (call : σ → Except ε α × σ)
  | factoryOfData (call : List (String × α) → σ → Except ε α × σ)

/-- `DefaultType::default_value`, `src/validators/with_default.rs:50-70`; `data` are the fields validated so far
(that a factory is called with an empty tuple where there are none is finding 89, and left out here). -/
def Default.produce (data : List (String × α)) : Default α ε σ → σ → Except ε (Option α) × σ
  | .none, st => (.ok Option.none, st)
  | .value d, st => (.ok (some d), st)
  | .factory call, st => ((call st).1.map some, (call st).2)
  | .factoryOfData call, st => ((call data st).1.map some, (call data st).2)

/-- The schema of a field, as far as it matters here: a default around a schema, a before or after validator function
around a schema, a reference to a definition, or another. `own`: its `serialization` replaces the serialiser (functions, formats, other types; not
`include-exclude-sequence`, `include-exclude-dict` and `base64`), `src/serializers/shared.rs:152-190`. -/
inductive Sch (α ε σ : Type) where
  | default (own : Bool) (d : Default α ε σ) (s : Sch α ε σ)
  | function (own : Bool) (s : Sch α ε σ)
  | ref (own : Bool) (s : Sch α ε σ)
  | other (own : Bool)

/-- The serialiser built: one with a default, or one of which there is none to ask for, `get_default` of
`src/serializers/shared.rs:314-316`. -/
inductive Ser (α ε σ : Type) where
  | withDefault (d : Default α ε σ) (s : Ser α ε σ)
  | other

/-- `CombinedSerializer::_build`, `src/serializers/shared.rs:145-200`, `WithDefaultSerializer::build`,
`src/serializers/type_serializers/with_default.rs:22-34`, and `FunctionBeforeSerializerBuilder::build`,
`FunctionAfterSerializerBuilder::build`, `src/serializers/type_serializers/function.rs:30-70`, which build what is
inside; `DefinitionRefSerializer`, `src/serializers/type_serializers/definitions.rs`, has no default. -/
def build : Sch α ε σ → Ser α ε σ
  | .default own d s => if own then .other else .withDefault d (build s)
  | .function own s => if own then .other else build s
  | .ref _ _ => .other
  | .other _ => .other

/-- `get_default`, `src/serializers/type_serializers/with_default.rs:74-84`, `src/serializers/shared.rs:314-316`. -/
def Ser.getDefault : Ser α ε σ → σ → Except ε (Option α) × σ
  | .other, st => (.ok Option.none, st)
  | .withDefault (.factoryOfData _) _, st => (.ok Option.none, st)
  | .withDefault d _, st => d.produce [] st

/-- `exclude_default`, `src/serializers/fields.rs:75-84`; `eq` is `==` of Python, which may raise. -/
def excludeDefault (eq : α → α → Except ε Bool) (on : Bool) (v : α) (s : Ser α ε σ) (st : σ) : Except ε Bool × σ :=
  if on then
    match s.getDefault st with
    | (.error e, st) => (.error e, st)
    | (.ok Option.none, st) => (.ok false, st)
    | (.ok (some d), st) => (eq v d, st)
  else (.ok false, st)

/-- A field of an instance: its name, schema and value. -/
structure Fld (α ε σ : Type) where
  name : String
  sch : Sch α ε σ
  value : α

/-- The loop over fields, `src/serializers/fields.rs:156-200`, with no other filter; what the values are serialised to
is left out. -/
def dump (eq : α → α → Except ε Bool) (on : Bool) : List (Fld α ε σ) → σ → Except ε (List (String × α)) × σ
  | [], st => (.ok [], st)
  | f :: fs, st =>
    match excludeDefault eq on f.value (build f.sch) st with
    | (.error e, st) => (.error e, st)
    | (.ok drop, st) =>
      match dump eq on fs st with
      | (.error e, st) => (.error e, st)
      | (.ok out, st) => (.ok (if drop then out else (f.name, f.value) :: out), st)

/-- The default a validator gives a missing field, `src/validators/with_default.rs:154-208` and
`src/validators/definitions.rs:95-104`; functions and other validators have none, `src/validators/mod.rs:853-860`. The
copy made of mutable defaults is left out (C99), as is `validate_default`. -/
def Sch.missing (data : List (String × α)) : Sch α ε σ → σ → Except ε (Option α) × σ
  | .default _ d _, st => d.produce data st
  | .function _ _, st => (.ok Option.none, st)
  | .ref _ s, st => s.missing data st
  | .other _, st => (.ok Option.none, st)

/-- The loop over fields of validation, `src/validators/model_fields.rs:180-247`, of what `dump` has given: a field that
is there is taken as it is, one that is missing gets its default or is an error. -/
def load (missingError : String → ε) (fields : List (Fld α ε σ)) (given : List (String × α)) (data : List (String × α))
    (st : σ) : Except ε (List (String × α)) × σ :=
  match fields with
  | [] => (.ok data, st)
  | f :: fs =>
    match given.lookup f.name with
    | some v => load missingError fs given (data ++ [(f.name, v)]) st
    | Option.none =>
      match f.sch.missing data st with
      | (.error e, st) => (.error e, st)
      | (.ok Option.none, st) => (.error (missingError f.name), st)
      | (.ok (some d), st) => load missingError fs given (data ++ [(f.name, d)]) st

end PC.ExclDefault
