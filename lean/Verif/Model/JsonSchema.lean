import Verif.Model.State
import Verif.Model.Inputs
import Verif.Model.Uuid

/-
Model of `src/validators/json.rs` (the schema `json`), of `SchemaValidator::validate_json` and of
`src/serializers/type_serializers/json.rs`.
-/

namespace PC.JsonSchema
open PC.In
open PC.Uuid (InputType)

variable {I V D : Type}

/-- A `ValidationState` with the `input_type` of its `Extra`, `src/validators/mod.rs:672-693`. -/
structure St (I : Type) where
  it : InputType
  st : VState I
  deriving DecidableEq, Repr

/-- A validator: its inputs are `A`, the inputs that errors show are `I`. -/
abbrev Val (A I V : Type) := A → St I → ValResult I V × St I

/-- What is not part of the crate: `jiter`'s two parsers (the error is the description). -/
structure Env (D V : Type) where
  parse : PartialMode → List UInt8 → Except String D
  pythonParse : PartialMode → List UInt8 → Except String V

/-- `map_bytes_error`, `src/validators/json.rs:102-109`. -/
def mapBytesError : ErrType → ErrType
  | .other "bytes_type" => .other "json_type"
  | t => t

/-- `validate_json_bytes`, `src/validators/json.rs:90-100`; `r` is the outcome of
`validate_bytes(false, utf8)`. -/
def validateJsonBytes (r : Match (List UInt8)) : Match (List UInt8) :=
  match r with
  | .ok m => .ok m
  | .error t => .error (mapBytesError t)

/-- `map_json_err`, `src/validators/json.rs:111-119`. -/
def mapJsonErr (input : I) (description : String) : ValError I :=
  .new (.other ("json_invalid: " ++ description)) input

/-- `JsonValidator`, `src/validators/json.rs:16-19`. -/
structure JsonV (D I V : Type) where
  validator : Option (Val D I V)

/-- A built validator: `Any`, or another. -/
inductive Built (D I V : Type) where
  | any (toObject : D → V)
  | other (v : Val D I V)

/-- `AnyValidator::validate`, `src/validators/any.rs:30-39`. -/
def anyValidate (toObject : D → V) : Val D I V := fun d s =>
  (.ok (toObject d), { s with st := s.st.floorExactness .strict })

/-- The validator of a built schema. -/
def Built.val : Built D I V → Val D I V
  | .any toObject => anyValidate toObject
  | .other v => v

/-- `build`, `src/validators/json.rs:24-45`. -/
def build (schema : Option (Built D I V)) : JsonV D I V :=
  match schema with
  | some (.any _) => ⟨none⟩
  | some (.other v) => ⟨some v⟩
  | none => ⟨none⟩

/-- `rebind_extra` with its `Drop`, `src/validators/validation_state.rs:46-53,130-134`, for the
change of `input_type` of `src/validators/json.rs:64-66`: the whole `extra` is put back. -/
def withInputType {β : Type} (it : InputType) (body : St I → β × St I) (s : St I) : β × St I :=
  let r := body { s with it := it }
  (r.1, ⟨s.it, { r.2.st with extra := s.st.extra }⟩)

/-- `JsonValidator::validate`, `src/validators/json.rs:51-83`; `bytes` is
`validate_bytes(false, utf8)` of the input and `shown` the input as errors show it. -/
def JsonV.validate {A : Type} (v : JsonV D I V) (E : Env D V) (bytes : A → Match (List UInt8))
    (shown : A → I) : Val A I V := fun input s =>
  match validateJsonBytes (bytes input) with
  | .error t => (.error (.new t (shown input)), s)
  | .ok (b, e) =>
    let s := { s with st := s.st.floorExactness e }
    match v.validator with
    | some validator =>
      match E.parse s.st.allowPartial b with
      | .error d => (.error (mapJsonErr (shown input) d), s)
      | .ok doc => withInputType .json (validator doc) s
    | none =>
      match E.pythonParse s.st.allowPartial b with
      | .error d => (.error (mapJsonErr (shown input) d), s)
      | .ok obj => (.ok obj, s)

/-- `SchemaValidator::_validate` of a Python object, `src/validators/mod.rs:386-415`. -/
def validatePython {A : Type} (v : Val A I V) (extra : Extra I) (guard : Guard.State)
    (p : PartialMode) (input : A) : ValResult I V :=
  (v input ⟨.python, VState.new extra guard p⟩).1

/-- `SchemaValidator::validate_json` with `_validate_json` and `_validate`,
`src/validators/mod.rs:233-260,386-445`. -/
def validateJson {A : Type} (v : Val D I V) (E : Env D V) (bytes : A → Match (List UInt8))
    (shown : A → I) (extra : Extra I) (guard : Guard.State) (p : PartialMode) (input : A) :
    ValResult I V :=
  match validateJsonBytes (bytes input) with
  | .error t => .error (.new t (shown input))
  | .ok (b, _) =>
    match E.parse p b with
    | .error d => .error (mapJsonErr (shown input) d)
    | .ok doc => (v doc ⟨.json, VState.new extra guard p⟩).1

/-! ### Serialisation -/

/-- `SerMode`, `src/serializers/extra.rs:297-301`. -/
inductive Mode where
  | python
  | json
  | other (s : String)
  deriving DecidableEq, Repr

/-- A serialiser: its three methods; `serde` gives the document that is written. -/
structure Ser (V D Err : Type) where
  toPython : Mode → V → Except Err V
  jsonKey : Mode → V → Except Err (List Char)
  serde : Mode → V → Except Err D

/-- What is not part of the crate: how a document is written, text as a Python object and as a
document. -/
structure Out (V D : Type) where
  render : D → List Char
  str : List Char → V
  doc : List Char → D

/-- `JsonSerializer`, `src/serializers/type_serializers/json.rs:48-101`; `inferKey` is
`infer_json_key`.  The bytes are UTF-8 as `serde` writes nothing else. -/
def jsonSer {Err : Type} (O : Out V D) (inferKey : Mode → V → Except Err (List Char))
    (roundTrip : Bool) (inner : Ser V D Err) : Ser V D Err where
  toPython mode v :=
    if roundTrip then
      match inner.serde mode v with
      | .ok d => .ok (O.str (O.render d))
      | .error e => .error e
    else inner.toPython mode v
  jsonKey mode v :=
    if roundTrip then
      match inner.serde mode v with
      | .ok d => .ok (O.render d)
      | .error e => .error e
    else inferKey mode v
  serde mode v :=
    if roundTrip then
      match inner.serde mode v with
      | .ok d => .ok (O.doc (O.render d))
      | .error e => .error e
    else inner.serde mode v

end PC.JsonSchema
