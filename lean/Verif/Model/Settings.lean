/-
Model of how validators and serialisers find their settings: `src/build_tools.rs`, `src/tools.rs` 26-36 and the
`config` that the builders pass on.
-/

namespace PC.Settings

/-- The Python values settings have. -/
inductive Val where
  | none
  | bool (b : Bool)
  | int (n : Int)
  | str (s : String)
deriving DecidableEq, Repr

/-- The entries of a schema or of a configuration other than schemas: `PyDict` in `src/tools.rs` 26-36. -/
abbrev Dict := String → Option Val

/-- Why a schema is rejected: `extract` failed (`src/tools.rs` 32) or `SchemaError` (`src/build_tools.rs` 203,
`src/validators/datetime.rs` 37-39). -/
inductive Err where
  | wrongType
  | badValue
deriving DecidableEq, Repr

/-- `FromPyObject` for `bool`: used by `src/build_tools.rs` 43-46. -/
def asBool : Val → Except Err Bool
  | .bool b => .ok b
  | _ => .error .wrongType

/-- `FromPyObject` for `usize` (`True` and `False` are numbers in Python): used by `src/validators/string.rs`
176-179. -/
def asSize : Val → Except Err Nat
  | .int n => if 0 ≤ n then .ok n.toNat else .error .wrongType
  | .bool b => .ok b.toNat
  | _ => .error .wrongType

/-- `FromPyObject` for `Bound<PyString>`: used by `src/validators/model.rs` 87. -/
def asStr : Val → Except Err String
  | .str s => .ok s
  | _ => .error .wrongType

/-- `FromPyObject` for `Option<Bound<PyString>>`: used by `src/build_tools.rs` 190. -/
def asOptStr : Val → Except Err (Option String)
  | .none => .ok .none
  | .str s => .ok (some s)
  | _ => .error .wrongType

/-- `SchemaDict::get_as`: `src/tools.rs` 26-36. -/
def getAs {α} (as : Val → Except Err α) (d : Dict) (k : String) : Except Err (Option α) :=
  match d k with
  | some v =>
    match as v with
    | .ok a => .ok (some a)
    | .error e => .error e
  | none => .ok none

/-- `schema_or_config`: `src/build_tools.rs` 14-30. -/
def schemaOrConfig {α} (as : Val → Except Err α) (schema : Dict) (config : Option Dict) (sk ck : String) :
    Except Err (Option α) :=
  match getAs as schema sk with
  | .error e => .error e
  | .ok (some v) => .ok (some v)
  | .ok none =>
    match config with
    | some c => getAs as c ck
    | none => .ok none

/-- `ExtraBehavior`: `src/build_tools.rs` 175-180. -/
inductive Extra where
  | allow
  | forbid
  | ignore
deriving DecidableEq, Repr

/-- `ExtraBehavior::from_schema_or_config`: `src/build_tools.rs` 183-207. -/
def extraOf (schema : Dict) (config : Option Dict) (default : Extra) : Except Err Extra :=
  match schemaOrConfig asOptStr schema config "extra_behavior" "extra_fields_behavior" with
  | .error e => .error e
  | .ok r =>
    match r.join with
    | some s =>
      if s = "allow" then .ok .allow
      else if s = "ignore" then .ok .ignore
      else if s = "forbid" then .ok .forbid
      else .error .badValue
    | none => .ok default

/-- `schema_or_config(..)?.unwrap_or(default)` for switches, e.g. `is_strict`: `src/build_tools.rs` 43-46. -/
def switch (schema : Dict) (config : Option Dict) (sk ck : String) (default : Bool) : Except Err Bool :=
  match schemaOrConfig asBool schema config sk ck with
  | .error e => .error e
  | .ok r => .ok (r.getD default)

/-- `is_strict`: `src/build_tools.rs` 43-46. -/
def isStrict (schema : Dict) (config : Option Dict) : Except Err Bool :=
  switch schema config "strict" "strict" false

/-- A switch that is read from the configuration alone, e.g. `loc_by_alias`: `src/validators/model_fields.rs` 110;
`Option<&PyDict>::get_as`: `src/tools.rs` 49-58. -/
def configSwitch (config : Option Dict) (k : String) : Except Err (Option Bool) :=
  match config with
  | some c => getAs asBool c k
  | none => .ok none

/-- The kinds of schemas that treat the configuration differently or read the settings below; `other` passes the
configuration on: every call of `build_validator` and `CombinedSerializer::build` in `src/validators` and
`src/serializers` (lists, dicts, tuples, sets, nullables, functions, chains, defaults, arguments, ...). -/
inductive Kind where
  | model
  | modelFields
  | dataclass
  | dataclassArgs
  | typedDict
  | str
  | arguments
  | other
deriving DecidableEq, Repr

/-- Validators and serialisers are built from the same schema: `src/validators/mod.rs` 558-668,
`src/serializers/shared.rs` 150-230. -/
inductive Side where
  | validator
  | serializer
deriving DecidableEq, Repr

/-- The settings of one built validator or serialiser. `extra`: `src/validators/model_fields.rs` 59,
`src/validators/typed_dict.rs` 62, `src/validators/dataclass.rs` 59, `src/validators/arguments.rs` 169,
`src/serializers/type_serializers/model.rs` 35 and 113, `src/serializers/type_serializers/typed_dict.rs` 30,
`src/serializers/type_serializers/dataclass.rs` 35; `total`: `src/validators/typed_dict.rs` 59-60,
`src/serializers/type_serializers/typed_dict.rs` 27-28; `strict`: callers of `is_strict`; `strip`, `minLength`:
`src/validators/string.rs` 176-187; `locByAlias`: `src/validators/model_fields.rs` 110; `byAlias`:
`src/serializers/type_serializers/model.rs` 50. Simplification: all are computed for every kind, whether it reads
them or not, and an error stays with the setting (in the code it is the outcome of the whole construction); the
other settings are read in the same ways. -/
structure Settings where
  extra : Except Err Extra
  total : Except Err Bool
  strict : Except Err Bool
  strip : Except Err Bool
  minLength : Except Err (Option Nat)
  locByAlias : Except Err (Option Bool)
  byAlias : Except Err (Option Bool)

/-- What is used for unknown fields if nothing is set: `src/validators/arguments.rs` 169 (`Forbid`) and the places
at `Settings.extra`. -/
def Kind.extraDefault : Kind → Extra
  | .arguments => .forbid
  | _ => .ignore

/-- The settings read from the own entries of a schema and the configuration it uses: the places at `Settings`. -/
def readSettings (k : Kind) (own : Dict) (config : Option Dict) : Settings where
  extra := extraOf own config k.extraDefault
  total := switch own config "total" "typed_dict_total" true
  strict := isStrict own config
  strip := switch own config "strip_whitespace" "str_strip_whitespace" false
  minLength := schemaOrConfig asSize own config "min_length" "str_min_length"
  locByAlias := configSwitch config "loc_by_alias"
  byAlias := configSwitch config "serialize_by_alias"

mutual

/-- A schema: its kind, a number to tell it from others, its own entries, its `config` entry and the schemas in it;
definitions; references: `src/validators/definitions.rs` 18-66. -/
inductive Schema where
  | node (kind : Kind) (id : Nat) (own : Dict) (config : Option Dict) (kids : Schemas)
  | defs (ds : Schemas) (inner : Schema)
  | ref (name : String)

/-- The schemas in a schema, in the order in which they are built; of definitions, each with its `ref`:
`src/validators/definitions.rs` 30-36. -/
inductive Schemas where
  | nil
  | cons (name : String) (s : Schema) (rest : Schemas)

end

/-- Which configuration a schema uses and passes on, given that around it. Validators: models
(`src/validators/model.rs` 76-82), dataclasses (`src/validators/dataclass.rs` 474-485) and typed dicts
(`src/validators/typed_dict.rs` 53-55) use their own. Serialisers: models
(`src/serializers/type_serializers/model.rs` 100-105) and dataclasses
(`src/serializers/type_serializers/dataclass.rs` 89-94) do, typed dicts use that around them
(`src/serializers/type_serializers/typed_dict.rs` 20-45). -/
def configFor (side : Side) (kind : Kind) (outer own : Option Dict) : Option Dict :=
  match side, kind with
  | _, .model => own
  | _, .dataclass => own
  | .validator, .typedDict => own
  | .serializer, .typedDict => outer
  | _, _ => outer

mutual

/-- `build_validator` and `CombinedSerializer::build`: `src/validators/mod.rs` 558-668 and
`src/serializers/shared.rs` 150-230, as the list of everything that is built (number and settings), definitions
included. Prebuilt validators of classes (`src/common/prebuilt.rs`) are left out. -/
def build (side : Side) (config : Option Dict) : Schema → List (Nat × Settings)
  | .node kind id own cfg kids =>
    let config := configFor side kind config cfg
    (id, readSettings kind own config) :: buildAll side config kids
  | .defs ds inner => buildAll side config ds ++ build side config inner
  | .ref _ => []

/-- The schemas in a schema, one after another: e.g. `src/validators/definitions.rs` 30-39 and
`src/validators/tuple.rs` 35-38. -/
def buildAll (side : Side) (config : Option Dict) : Schemas → List (Nat × Settings)
  | .nil => []
  | .cons _ s rest => build side config s ++ buildAll side config rest

end

end PC.Settings
