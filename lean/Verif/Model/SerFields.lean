/-
Model of the serialisation of models, typed dicts and computed fields:
`src/serializers/fields.rs`, `src/serializers/computed_fields.rs` and the inner value of
`src/serializers/type_serializers/model.rs`.
-/
import Verif.Model.Filter
import Verif.Model.SerUnion

namespace PC.SerFields

open PC.Filter (Key FVal Filt kset keyFilter)
open PC.SerUnion (Check)

/-- A serialiser of `α` (Python values) into `β` (JSON-like values), with its two entry points `to_python`
(here in mode `json` when compared with the other) and `serde_serialize`, both taking `include` and
`exclude`, and `get_default`: `TypeSerializer`, `src/serializers/shared.rs` 272-330. `ε` stands for
Python exceptions. Simplification: exceptions are not told apart from their serde forms
(`py_err_se_err`), and warnings are left out. -/
structure FSer (α β ε : Type) where
  toPython : α → Option FVal → Option FVal → Except ε β
  serde : α → Option FVal → Option FVal → Except ε β
  getDefault : Except ε (Option α)

/-- `SerField`: `src/serializers/fields.rs` 24-32. No serialiser means that the schema excludes the
field. -/
structure SerField (α β ε : Type) where
  alias : Option String
  serializer : Option (FSer α β ε)
  required : Bool
  byAlias : Option Bool

/-- `ComputedField`: `src/serializers/computed_fields.rs` 113-120. -/
structure Computed (α β ε : Type) where
  name : String
  serializer : FSer α β ε
  alias : String
  byAlias : Option Bool

/-- `FieldsMode`: `src/serializers/fields.rs` 87-94. -/
inductive Mode where
  | simpleDict
  | modelExtra
  | typedDictAllow
deriving DecidableEq, Repr

/-- The options in `Extra` that the fields serialiser reads: `src/serializers/extra.rs` 118-143. -/
structure Opts where
  byAlias : Option Bool
  excludeUnset : Bool
  excludeDefaults : Bool
  excludeNone : Bool
  roundTrip : Bool
  check : Check

/-- What serialisation needs from Python and from the rest of the crate: `is_none` on values and on
outputs, `==` between values (which may raise), inference (`infer_to_python`, `infer_serialize`), and
`hash` on keys. -/
structure Env (α β ε : Type) where
  isNone : α → Bool
  isNoneOut : β → Bool
  eq : α → α → Except ε Bool
  inferPython : α → Option FVal → Option FVal → Except ε β
  inferSerde : α → Option FVal → Option FVal → Except ε β
  hash : Key → Int

/-- Exceptions: of an inner serialiser or of Python code (`inner`), of the filters (`filter`), a key
that is not a string (`key`), `Unexpected field` and `Expected n fields but got m`:
`src/serializers/fields.rs` 162, 202-208, 221-226. -/
inductive SErr (ε : Type) where
  | inner (e : ε)
  | filter (e : PC.Filter.Err)
  | key
  | unexpected (k : String)
  | expected (n got : Nat)

/-- `GeneralFieldsSerializer`: `src/serializers/fields.rs` 98-106. `filter` is always the default
`SchemaFilter` (129). -/
structure FieldsSer (α β ε : Type) where
  fields : List (String × SerField α β ε)
  computed : List (Computed α β ε)
  mode : Mode
  extraSer : Option (FSer α β ε)

/-- `self.fields.get(key)`: `src/serializers/fields.rs` 163, 258. -/
def FieldsSer.get {α β ε : Type} (s : FieldsSer α β ε) (k : String) : Option (SerField α β ε) :=
  (s.fields.find? (fun f => f.1 == k)).map (·.2)

/-- `required_fields`: `src/serializers/fields.rs` 124. -/
def FieldsSer.requiredFields {α β ε : Type} (s : FieldsSer α β ε) : Nat :=
  (s.fields.filter (·.2.required)).length

/-- `serialize_by_alias_or`: `src/serializers/extra.rs` 207-209. -/
def byAliasOr (o : Opts) (f : Option Bool) : Bool := (o.byAlias.or f).getD false

/-- `get_key_py` and `get_key_json`: `src/serializers/fields.rs` 56-72. -/
def SerField.key {α β ε : Type} (f : SerField α β ε) (name : String) (o : Opts) : String :=
  if byAliasOr o f.byAlias then
    match f.alias with
    | some a => a
    | Option.none => name
  else name

/-- The key of a computed field: `src/serializers/computed_fields.rs` 101-104, 168-171. -/
def Computed.key {α β ε : Type} (c : Computed α β ε) (o : Opts) : String :=
  if byAliasOr o c.byAlias then c.alias else c.name

/-- `exclude_default`: `src/serializers/fields.rs` 75-84. -/
def excludeDefault {α β ε : Type} (env : Env α β ε) (o : Opts) (ser : FSer α β ε) (v : α) :
    Except (SErr ε) Bool :=
  if o.excludeDefaults then
    match ser.getDefault with
    | .error e => .error (.inner e)
    | .ok Option.none => .ok false
    | .ok (some d) =>
      match env.eq v d with
      | .error e => .error (.inner e)
      | .ok b => .ok b
  else .ok false

/-- `self.filter.key_filter(...)` with the default `SchemaFilter`: `src/serializers/fields.rs` 176, 256. -/
def fieldFilter {α β ε : Type} (env : Env α β ε) (k : Key) (incl excl : Option FVal) :
    Except (SErr ε) PC.Filter.Next :=
  match keyFilter env.hash (.schema Option.none Option.none) k incl excl with
  | .error e => .error (.filter e)
  | .ok r => .ok r

/-- An `ok` or an inner exception. -/
def lift {ε γ : Type} : Except ε γ → Except (SErr ε) γ
  | .ok v => .ok v
  | .error e => .error (.inner e)

/-- The serialiser of extra items in the Python path: `src/serializers/fields.rs` 195-200, 371-376. -/
def FieldsSer.extraPython {α β ε : Type} (s : FieldsSer α β ε) (env : Env α β ε) (v : α)
    (ni ne : Option FVal) : Except (SErr ε) β :=
  match s.extraSer with
  | some ser => lift (ser.toPython v ni ne)
  | Option.none => lift (env.inferPython v ni ne)

/-- The count of required fields seen: `src/serializers/fields.rs` 165-169, 191-193. -/
def countReq {α β ε : Type} (f : Option (SerField α β ε)) (used : Nat) : Nat :=
  match f with
  | some f => if f.required then used + 1 else used
  | Option.none => used

/-- The loop of `main_to_python`: `src/serializers/fields.rs` 160-211, with the output dict and the count of
required fields seen. -/
def mainLoop {α β ε : Type} (s : FieldsSer α β ε) (env : Env α β ε) (o : Opts) (incl excl : Option FVal) :
    List (Key × α) → List (Key × β) → Nat → Except (SErr ε) (List (Key × β) × Nat)
  | [], out, used => .ok (out, used)
  | (.i _, _) :: _, _, _ => .error .key
  | (.s name, v) :: rest, out, used =>
    if o.excludeNone && env.isNone v then mainLoop s env o incl excl rest out (countReq (s.get name) used)
    else
      match fieldFilter env (.s name) incl excl with
      | .error e => .error e
      | .ok Option.none => mainLoop s env o incl excl rest out used
      | .ok (some (ni, ne)) =>
        match s.get name with
        | some f =>
          match f.serializer with
          | Option.none => mainLoop s env o incl excl rest out (countReq (some f) used)
          | some ser =>
            match excludeDefault env o ser v with
            | .error e => .error e
            | .ok true => mainLoop s env o incl excl rest out (countReq (some f) used)
            | .ok false =>
              match ser.toPython v ni ne with
              | .error e => .error (.inner e)
              | .ok b =>
                mainLoop s env o incl excl rest (kset out (.s (f.key name o)) b) (countReq (some f) used)
        | Option.none =>
          if s.mode = .typedDictAllow then
            match s.extraPython env v ni ne with
            | .error e => .error e
            | .ok b => mainLoop s env o incl excl rest (kset out (.s name) b) used
          else if o.check = .strict then .error (.unexpected name)
          else mainLoop s env o incl excl rest out used

/-- `main_to_python`: `src/serializers/fields.rs` 148-230. -/
def mainToPython {α β ε : Type} (s : FieldsSer α β ε) (env : Env α β ε) (o : Opts) (incl excl : Option FVal)
    (items : List (Key × α)) : Except (SErr ε) (List (Key × β)) :=
  match mainLoop s env o incl excl items [] 0 with
  | .error e => .error e
  | .ok (out, used) =>
    if o.check ≠ .none ∧ ¬(o.excludeDefaults || o.excludeUnset || o.excludeNone || excl.isSome) = true
        ∧ used < s.requiredFields then
      .error (.expected s.requiredFields used)
    else .ok out

/-- The loop over `__pydantic_extra__`: `src/serializers/fields.rs` 365-380. -/
def extrasLoop {α β ε : Type} (s : FieldsSer α β ε) (env : Env α β ε) (o : Opts) (incl excl : Option FVal) :
    List (Key × α) → List (Key × β) → Except (SErr ε) (List (Key × β))
  | [], out => .ok out
  | (k, v) :: rest, out =>
    if o.excludeNone && env.isNone v then extrasLoop s env o incl excl rest out
    else
      match fieldFilter env k incl excl with
      | .error e => .error e
      | .ok Option.none => extrasLoop s env o incl excl rest out
      | .ok (some (ni, ne)) =>
        match s.extraPython env v ni ne with
        | .error e => .error e
        | .ok b => extrasLoop s env o incl excl rest (kset out k b)

/-- `ComputedFields::to_python`: `src/serializers/computed_fields.rs` 42-62, 147-175. `attr` is `getattr`
on the model. -/
def computedLoop {α β ε : Type} (env : Env α β ε) (o : Opts) (incl excl : Option FVal)
    (attr : String → Except ε α) :
    List (Computed α β ε) → List (Key × β) → Except (SErr ε) (List (Key × β))
  | [], out => .ok out
  | c :: rest, out =>
    match fieldFilter env (.s c.name) incl excl with
    | .error e => .error e
    | .ok Option.none => computedLoop env o incl excl attr rest out
    | .ok (some (ni, ne)) =>
      match attr c.name with
      | .error e => .error (.inner e)
      | .ok v =>
        match c.serializer.toPython v ni ne with
        | .error e => .error (.inner e)
        | .ok b =>
          if o.excludeNone && env.isNoneOut b then computedLoop env o incl excl attr rest out
          else computedLoop env o incl excl attr rest (kset out (.s (c.key o)) b)

/-- What is serialised: the `__dict__`, the extras if any, and `getattr`. -/
structure Inst (α ε : Type) where
  dict : List (Key × α)
  extra : Option (List (Key × α))
  fieldsSet : List Key
  attr : String → Except ε α

/-- `to_python` of the fields serialiser: `src/serializers/fields.rs` 327-383, after `extract_dicts`
succeeded. Simplification: `serialize_as_any` is left out. -/
def fieldsToPython {α β ε : Type} (s : FieldsSer α β ε) (env : Env α β ε) (o : Opts)
    (incl excl : Option FVal) (main : List (Key × α)) (extra : Option (List (Key × α)))
    (attr : String → Except ε α) : Except (SErr ε) (List (Key × β)) :=
  match mainToPython s env o incl excl main with
  | .error e => .error e
  | .ok out =>
    match extrasLoop s env o incl excl (extra.getD []) out with
    | .error e => .error e
    | .ok out' => if o.roundTrip then .ok out' else computedLoop env o incl excl attr s.computed out'

/-- `infer_json_key` on the keys modelled: `src/serializers/infer.rs` 585-606. -/
def jsonKey : Key → String
  | .s s => s
  | .i n => toString n

/-- `main_serde_serialize`: `src/serializers/fields.rs` 232-281, the entries in the order written. -/
def mainSerde {α β ε : Type} (s : FieldsSer α β ε) (env : Env α β ε) (o : Opts) (incl excl : Option FVal) :
    List (Key × α) → List (String × β) → Except (SErr ε) (List (String × β))
  | [], out => .ok out
  | (k, v) :: rest, out =>
    if o.excludeNone && env.isNone v then mainSerde s env o incl excl rest out
    else
      match k with
      | .i _ => .error .key
      | .s name =>
        match fieldFilter env (.s name) incl excl with
        | .error e => .error e
        | .ok Option.none => mainSerde s env o incl excl rest out
        | .ok (some (ni, ne)) =>
          match s.get name with
          | some f =>
            match f.serializer with
            | Option.none => mainSerde s env o incl excl rest out
            | some ser =>
              match excludeDefault env o ser v with
              | .error e => .error e
              | .ok true => mainSerde s env o incl excl rest out
              | .ok false =>
                match ser.serde v ni ne with
                | .error e => .error (.inner e)
                | .ok b => mainSerde s env o incl excl rest (out ++ [(f.key name o, b)])
          | Option.none =>
            if s.mode = .typedDictAllow then
              match env.inferSerde v ni ne with
              | .error e => .error (.inner e)
              | .ok b => mainSerde s env o incl excl rest (out ++ [(jsonKey (.s name), b)])
            else mainSerde s env o incl excl rest out

/-- The loop over extras in `serde_serialize`: `src/serializers/fields.rs` 439-451. -/
def extrasSerde {α β ε : Type} (env : Env α β ε) (o : Opts) (incl excl : Option FVal) :
    List (Key × α) → List (String × β) → Except (SErr ε) (List (String × β))
  | [], out => .ok out
  | (k, v) :: rest, out =>
    if o.excludeNone && env.isNone v then extrasSerde env o incl excl rest out
    else
      match fieldFilter env k incl excl with
      | .error e => .error e
      | .ok Option.none => extrasSerde env o incl excl rest out
      | .ok (some (ni, ne)) =>
        match env.inferSerde v ni ne with
        | .error e => .error (.inner e)
        | .ok b => extrasSerde env o incl excl rest (out ++ [(jsonKey k, b)])

/-- `ComputedFields::serde_serialize`: `src/serializers/computed_fields.rs` 65-109, 196-210.
Simplification: the second `getattr` (in `ComputedFieldSerializer::serialize`) gives the same as the
first. -/
def computedSerde {α β ε : Type} (env : Env α β ε) (o : Opts) (incl excl : Option FVal)
    (attr : String → Except ε α) :
    List (Computed α β ε) → List (String × β) → Except (SErr ε) (List (String × β))
  | [], out => .ok out
  | c :: rest, out =>
    match fieldFilter env (.s c.name) incl excl with
    | .error e => .error e
    | .ok Option.none => computedSerde env o incl excl attr rest out
    | .ok (some (ni, ne)) =>
      match attr c.name with
      | .error e => .error (.inner e)
      | .ok v =>
        if o.excludeNone && env.isNone v then computedSerde env o incl excl attr rest out
        else
          match c.serializer.serde v ni ne with
          | .error e => .error (.inner e)
          | .ok b => computedSerde env o incl excl attr rest (out ++ [(c.key o, b)])

/-- `serde_serialize` of the fields serialiser: `src/serializers/fields.rs` 389-455. -/
def fieldsSerde {α β ε : Type} (s : FieldsSer α β ε) (env : Env α β ε) (o : Opts)
    (incl excl : Option FVal) (main : List (Key × α)) (extra : Option (List (Key × α)))
    (attr : String → Except ε α) : Except (SErr ε) (List (String × β)) :=
  match mainSerde s env o incl excl main [] with
  | .error e => .error e
  | .ok out =>
    match extrasSerde env o incl excl (extra.getD []) out with
    | .error e => .error e
    | .ok out' => if o.roundTrip then .ok out' else computedSerde env o incl excl attr s.computed out'

/-- `get_inner_value`: the attributes to serialise, `src/serializers/type_serializers/model.rs` 136-151. -/
def innerDict {α ε : Type} (o : Opts) (m : Inst α ε) : List (Key × α) :=
  if o.excludeUnset then m.dict.filter (fun e => m.fieldsSet.contains e.1) else m.dict

/-- The extras to serialise: `src/serializers/type_serializers/model.rs` 153-158 with `extract_dicts`,
`src/serializers/fields.rs` 135-146. Simplification: `has_extra` of the model and the mode of its
fields agree. -/
def innerExtra {α β ε : Type} (s : FieldsSer α β ε) (m : Inst α ε) : Option (List (Key × α)) :=
  if s.mode = .modelExtra then m.extra else Option.none

/-- `to_python` of a model (not a root model, and a value that is allowed):
`src/serializers/type_serializers/model.rs` 165-204. -/
def modelToPython {α β ε : Type} (s : FieldsSer α β ε) (env : Env α β ε) (o : Opts)
    (incl excl : Option FVal) (m : Inst α ε) : Except (SErr ε) (List (Key × β)) :=
  fieldsToPython s env o incl excl (innerDict o m) (innerExtra s m) m.attr

/-- `serde_serialize` of a model: `src/serializers/type_serializers/model.rs` 215-257. -/
def modelSerde {α β ε : Type} (s : FieldsSer α β ε) (env : Env α β ε) (o : Opts)
    (incl excl : Option FVal) (m : Inst α ε) : Except (SErr ε) (List (String × β)) :=
  fieldsSerde s env o incl excl (innerDict o m) (innerExtra s m) m.attr

end PC.SerFields
