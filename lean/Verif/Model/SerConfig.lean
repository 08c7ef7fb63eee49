/-
Model of which configuration decides how floats, bytes and timedeltas are written by `to_json`:
`src/serializers/config.rs`, and how the `build` functions of the serialisers pass the configuration on.
-/

namespace PC.SerConfig

/-- `TimedeltaMode`, `src/serializers/config.rs:86-91`. -/
inductive TimedeltaMode where
  | iso8601
  | float
  deriving DecidableEq, Repr

/-- `BytesMode`, `src/serializers/config.rs:93-99`. -/
inductive BytesMode where
  | utf8
  | base64
  | hex
  deriving DecidableEq, Repr

/-- `InfNanMode`, `src/serializers/config.rs:101-107`. -/
inductive InfNanMode where
  | null
  | constants
  | strings
  deriving DecidableEq, Repr

/-- What is raised while a serialiser is built: a `SchemaError` with its text, or the `TypeError` of a downcast. The
wrapping of the text by the serialisers around is left out (C113 has it). -/
inductive Err where
  | schema (text : String)
  | type
  deriving DecidableEq, Repr

/-- `TimedeltaMode::from_str`, `src/serializers/config.rs:60-71,86-91`. -/
def TimedeltaMode.fromStr (s : String) : Except Err TimedeltaMode :=
  if s = "iso8601" then .ok .iso8601
  else if s = "float" then .ok .float
  else .error (.schema ("Invalid TimedeltaMode serialization mode: `" ++ s ++ "`, expected iso8601 or float or "))

/-- `BytesMode::from_str`, `src/serializers/config.rs:60-71,93-99`. -/
def BytesMode.fromStr (s : String) : Except Err BytesMode :=
  if s = "utf8" then .ok .utf8
  else if s = "base64" then .ok .base64
  else if s = "hex" then .ok .hex
  else .error (.schema ("Invalid BytesMode serialization mode: `" ++ s ++ "`, expected utf8 or base64 or hex or "))

/-- `InfNanMode::from_str`, `src/serializers/config.rs:60-71,101-107`. -/
def InfNanMode.fromStr (s : String) : Except Err InfNanMode :=
  if s = "null" then .ok .null
  else if s = "constants" then .ok .constants
  else if s = "strings" then .ok .strings
  else .error (.schema ("Invalid InfNanMode serialization mode: `" ++ s ++ "`, expected null or constants or strings or "))

/-- A value in a configuration dict: a string, or anything else. -/
inductive Item where
  | str (s : String)
  | other
  deriving DecidableEq, Repr

/-- The part of a configuration dict that is read here, `src/serializers/config.rs:86-107`: `ser_json_timedelta`,
`ser_json_bytes` and `ser_json_inf_nan`, each of which may be absent. -/
structure Cfg where
  timedelta : Option Item := none
  bytes : Option Item := none
  infNan : Option Item := none
  deriving DecidableEq, Repr

/-- `FromConfig::from_config`, `src/serializers/config.rs:74-82`: the default is the first mode of the enum. -/
def fromConfig {μ : Type} (parse : String → Except Err μ) (dflt : μ) (get : Cfg → Option Item) :
    Option Cfg → Except Err μ
  | none => .ok dflt
  | some c =>
    match get c with
    | none => .ok dflt
    | some (.str s) => parse s
    | some .other => .error .type

/-- `SerializationConfig`, `src/serializers/config.rs:17-23`. -/
structure Modes where
  timedelta : TimedeltaMode
  bytes : BytesMode
  infNan : InfNanMode
  deriving DecidableEq, Repr

/-- `SerializationConfig::from_config`, `src/serializers/config.rs:26-35`. -/
def Modes.fromConfig (c : Option Cfg) : Except Err Modes :=
  match SerConfig.fromConfig TimedeltaMode.fromStr .iso8601 Cfg.timedelta c with
  | .error e => .error e
  | .ok t =>
    match SerConfig.fromConfig BytesMode.fromStr .utf8 Cfg.bytes c with
    | .error e => .error e
    | .ok b =>
      match SerConfig.fromConfig InfNanMode.fromStr .null Cfg.infNan c with
      | .error e => .error e
      | .ok i => .ok ⟨t, b, i⟩

/-- `SerializationConfig::from_args`, `src/serializers/config.rs:37-43`. -/
def Modes.fromArgs (timedelta bytes infNan : String) : Except Err Modes :=
  match TimedeltaMode.fromStr timedelta with
  | .error e => .error e
  | .ok t =>
    match BytesMode.fromStr bytes with
    | .error e => .error e
    | .ok b =>
      match InfNanMode.fromStr infNan with
      | .error e => .error e
      | .ok i => .ok ⟨t, b, i⟩

/-- The three types of values whose JSON depends on the configuration, `src/serializers/infer.rs:420-440,465-471`. -/
inductive Kind where
  | float
  | bytes
  | timedelta
  deriving DecidableEq, Repr

/-- A mode of one of the three enums, `src/serializers/config.rs:86-107`. -/
inductive AnyMode where
  | timedelta (m : TimedeltaMode)
  | bytes (m : BytesMode)
  | infNan (m : InfNanMode)
  deriving DecidableEq, Repr

/-- The type of value that a mode is for: the fields of `FloatSerializer`, `BytesSerializer` and
`TimeDeltaSerializer`, `src/serializers/type_serializers/float.rs:20-22`, `bytes.rs:14-17`, `timedelta.rs:15-18`. -/
def AnyMode.kind : AnyMode → Kind
  | .timedelta _ => .timedelta
  | .bytes _ => .bytes
  | .infNan _ => .float

/-- The mode that `infer_serialize` takes from `extra.config`, `src/serializers/infer.rs:420-440,465-471`. -/
def Modes.forKind (m : Modes) : Kind → AnyMode
  | .float => .infNan m.infNan
  | .bytes => .bytes m.bytes
  | .timedelta => .timedelta m.timedelta

/-- A core schema: the three types, `any`, lists, typed dicts and models (with the `config` in their schema), and
dataclasses as models. Aliases, keys of dicts, functions, unions, computed fields and references are left out. -/
inductive Schema where
  | leaf (k : Kind)
  | any
  | list (item : Schema)
  | typedDict (own : Option Cfg) (fields : List (String × Schema))
  | model (own : Option Cfg) (fields : List (String × Schema))

/-- The serialisers built, `src/serializers/shared.rs:78-147`. -/
inductive Ser where
  | leaf (m : AnyMode)
  | any
  | list (item : Ser)
  | fields (fs : List (String × Ser))
  | model (fs : List (String × Ser))

/-- The mode that the serialiser of one of the three types is built with: `FloatSerializer::new`,
`src/serializers/type_serializers/float.rs:25-31`, `BytesSerializer::build`, `bytes.rs:22-29`, and
`TimeDeltaSerializer::build`, `timedelta.rs:23-30`. -/
def leafMode (k : Kind) (config : Option Cfg) : Except Err AnyMode :=
  match k with
  | .float => (fromConfig InfNanMode.fromStr .null Cfg.infNan config).map .infNan
  | .bytes => (fromConfig BytesMode.fromStr .utf8 Cfg.bytes config).map .bytes
  | .timedelta => (fromConfig TimedeltaMode.fromStr .iso8601 Cfg.timedelta config).map .timedelta

mutual

/-- `CombinedSerializer::build`: `ListSerializer::build` passes the configuration on
(`src/serializers/type_serializers/list.rs:36`), `TypedDictBuilder::build` too
(`src/serializers/type_serializers/typed_dict.rs:20-76`, which does not read the `config` of its schema), while
`ModelSerializer::build` replaces it by that of its schema
(`src/serializers/type_serializers/model.rs:100-105`, `dataclass.rs:89-94`). -/
def build : Schema → Option Cfg → Except Err Ser
  | .leaf k, config => (leafMode k config).map .leaf
  | .any, _ => .ok .any
  | .list item, config => (build item config).map .list
  | .typedDict _ fs, config => (buildFields fs config).map .fields
  | .model own fs, _ => (buildFields fs own).map .model

/-- The loop over the fields, `src/serializers/type_serializers/typed_dict.rs:48-69`, `model.rs:52-73`. -/
def buildFields : List (String × Schema) → Option Cfg → Except Err (List (String × Ser))
  | [], _ => .ok []
  | (k, s) :: rest, config =>
    match build s config with
    | .error e => .error e
    | .ok ser =>
      match buildFields rest config with
      | .error e => .error e
      | .ok sers => .ok ((k, ser) :: sers)

end

/-- `SchemaSerializer`, `src/serializers/mod.rs:46-58`. -/
structure SchemaSerializer where
  ser : Ser
  modes : Modes

/-- `SchemaSerializer::py_new`, `src/serializers/mod.rs:91-106`. -/
def SchemaSerializer.new (s : Schema) (config : Option Cfg) : Except Err SchemaSerializer :=
  match build s config with
  | .error e => .error e
  | .ok ser =>
    match Modes.fromConfig config with
    | .error e => .error e
    | .ok modes => .ok ⟨ser, modes⟩

/-- A float, bytes or a timedelta; which one it is does not matter here. -/
structure Atom where
  kind : Kind
  id : Nat
  deriving DecidableEq, Repr

/-- A Python value; `obj` is an instance of a model with the number of its class and its `__dict__`. -/
inductive Value where
  | atom (a : Atom)
  | list (vs : List Value)
  | dict (fs : List (String × Value))
  | obj (cls : Nat) (fs : List (String × Value))

/-- JSON as it is written; an atom with the mode that it is written with. How each mode writes is in C79. -/
inductive Out where
  | atom (m : AnyMode) (a : Atom)
  | list (os : List Out)
  | dict (fs : List (String × Out))

/-- The `__pydantic_serializer__` of each class: its modes and the serialisers of its fields,
`src/serializers/infer.rs:480-505`; it is taken to be that of a model. -/
structure World where
  modes : Nat → Modes
  fields : Nat → List (String × Ser)

/-- The mode for a float, bytes or a timedelta: that of the serialiser if it is for this type
(`src/serializers/type_serializers/float.rs:110-117`, `bytes.rs:78-86`, `timedelta.rs:71-83`), or else that of
`extra.config`, `src/serializers/infer.rs:420-440,465-471`. -/
def atomMode (root : Modes) (s : Ser) (k : Kind) : AnyMode :=
  match s with
  | .leaf m => if m.kind = k then m else root.forKind k
  | _ => root.forKind k

/-- The serialiser of the items of a list, `src/serializers/type_serializers/list.rs:89-125`; those of other
serialisers and of `any` are inferred, `src/serializers/infer.rs:446`. -/
def itemSer : Ser → Ser
  | .list s => s
  | _ => .any

/-- The serialisers of the items of a dict; without them the values are inferred, `src/serializers/infer.rs:442-445`,
`src/serializers/fields.rs:389-430`. -/
def dictSers : Ser → Option (List (String × Ser))
  | .fields fs => some fs
  | _ => none

/-- The modes and serialisers for an instance of a model: a model serialiser takes every object that has a `__dict__`
(`allow_value`, `src/serializers/type_serializers/model.rs:127-134`, `SerCheck::None`) and leaves `extra.config` as it
is; otherwise the object's own serialiser is taken with its own configuration, `src/serializers/infer.rs:480-505`. -/
def objSers (W : World) (root : Modes) (s : Ser) (cls : Nat) : Modes × List (String × Ser) :=
  match s with
  | .model fs => (root, fs)
  | _ => (W.modes cls, W.fields cls)

mutual

/-- `serde_serialize` of the serialisers and `infer_serialize`. -/
def run (W : World) (root : Modes) (s : Ser) : Value → Out
  | .atom a => .atom (atomMode root s a.kind) a
  | .list vs => .list (runItems W root (itemSer s) vs)
  | .dict fs => .dict (runFields W root (dictSers s) fs)
  | .obj c fs => .dict (runFields W (objSers W root s c).1 (some (objSers W root s c).2) fs)

/-- The items of a list one after the other, `src/serializers/type_serializers/list.rs:89-125`. -/
def runItems (W : World) (root : Modes) (s : Ser) : List Value → List Out
  | [] => []
  | v :: vs => run W root s v :: runItems W root s vs

/-- `main_serde_serialize`, `src/serializers/fields.rs:232-281`, without filters and aliases: a value without a field
is left out; `none` stands for `serialize_pairs_json`, `src/serializers/infer.rs:723-745`, which infers them all. -/
def runFields (W : World) (root : Modes) (sers : Option (List (String × Ser))) :
    List (String × Value) → List (String × Out)
  | [] => []
  | (k, v) :: rest =>
    match sers with
    | none => (k, run W root .any v) :: runFields W root sers rest
    | some fs =>
      match fs.lookup k with
      | some s => (k, run W root s v) :: runFields W root sers rest
      | none => runFields W root sers rest

end

/-- `SchemaSerializer::to_json`, `src/serializers/mod.rs:161-214`. -/
def SchemaSerializer.toJson (W : World) (S : SchemaSerializer) (v : Value) : Out := run W S.modes S.ser v

/-- The function `to_json`, `src/serializers/mod.rs:239-281`, with its three modes. -/
def toJson (W : World) (timedelta bytes infNan : String) (v : Value) : Except Err Out :=
  (Modes.fromArgs timedelta bytes infNan).map fun m => run W m .any v

/-- `to_json` without arguments: the defaults of its signature, `src/serializers/mod.rs:241-244`. -/
def toJsonDefault (W : World) (v : Value) : Except Err Out := toJson W "iso8601" "utf8" "constants" v

end PC.SerConfig
