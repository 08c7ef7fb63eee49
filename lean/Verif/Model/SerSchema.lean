import Verif.Model.Infer
import Verif.Model.SerFunction

/-
Serialisers built from schemas, together with inference: `src/serializers/type_serializers/{any,nullable,list,tuple,
set_frozenset,dict,model,dataclass,json_or_python,definitions}.rs`, plain functions of `function.rs`, those of the scalars,
and `src/serializers/fields.rs`.

Serialisers and inference call each other, through values that may be cyclic; the recursion guard bounds the depth.
Here the depth is a fuel, and what happens at its end a parameter (`outOfFuel`).
-/

namespace PC.Infer
open PC.Float (F64)
open PC.Filter (FVal Filt indexFilter keyFilter)
open PC.SerFunction (WhenUsed)

/-- `FieldsMode`, `src/serializers/fields.rs:87-94`. -/
inductive FieldsMode where
  | simpleDict
  | modelExtra
  | typedDictAllow
  deriving DecidableEq

/-- A `SerField` without its serialiser, `src/serializers/fields.rs:24-32`. -/
structure FieldInfo where
  name : Text
  alias : Option Text
  required : Bool
  byAlias : Option Bool

/-- `IsType`, `src/serializers/ob_type.rs:56-61`. -/
inductive IsType where
  | exact
  | subclass
  | no
  deriving DecidableEq

/-- The `ObType`s the serialisers of scalars ask for. -/
inductive Kind where
  | bool
  | int
  | float
  | str
  deriving DecidableEq

/-- The types written as text: `build_serializer!` of `src/serializers/type_serializers/datetime_etc.rs:122-129` and
`url.rs:91-92`. -/
inductive TextKind where
  | datetime
  | date
  | time
  | url
  | multiHostUrl
  deriving DecidableEq

/-- `get_name` of these serialisers, `datetime_etc.rs:115-117`, `url.rs:85-87`. -/
def TextKind.name : TextKind → Text
  | .datetime => "datetime".toList
  | .date => "date".toList
  | .time => "time".toList
  | .url => "url".toList
  | .multiHostUrl => "multi-host-url".toList

/-- `LiteralSerializer`, `src/serializers/type_serializers/literal.rs:19-26`: the expected 64-bit integers and strings,
and the list of the other expected values, if there are any. -/
structure LiteralInfo where
  name : Text
  ints : List Int
  strs : List Text
  others : Option Nat

/-- The serialisers of scalars: `src/serializers/type_serializers/{simple,float,string,bytes,datetime_etc,url,timedelta,
decimal,literal,enum_}.rs`. An `enumOf` has a `sub_type` (`enum_.rs:34-40`), whose serialiser is one of a scalar. -/
inductive Leaf where
  | none
  | bool
  | int
  | float (infNan : InfNanMode)
  | str
  | bytes (mode : Bytes.Mode)
  | text (k : TextKind)
  | timedelta (mode : TimedeltaMode)
  | decimal
  | literal (l : LiteralInfo)
  | enum (cls : Nat)
  | enumOf (cls : Nat) (sub : Leaf)

/-- `FunctionPlainSerializer` without its serialisers, `src/serializers/type_serializers/function.rs:75-86`; `func` names
the function. -/
structure FuncInfo where
  func : Nat
  whenUsed : WhenUsed
  isField : Bool
  infoArg : Bool

/-- What a function raises: `PydanticSerializationUnexpectedValue`, or anything else (which becomes a
`PydanticSerializationError`, unless it is one); `src/serializers/type_serializers/function.rs:191-209`. -/
inductive FuncErr where
  | unexpected (message : Text)
  | other (e : SErr)

mutual
/-- Serialisation schemas. A `model` has a class, and may have extras or be a root model
(`src/serializers/type_serializers/model.rs:89-94`). A `ref` names a definition. Names (`get_name`) are kept where a
warning shows them. A `dataclass` has a class and the names of its fields
(`src/serializers/type_serializers/dataclass.rs:72-77`). A `tuple` may have a variadic item
(`src/serializers/type_serializers/tuple.rs:20-26`). A `function` has the schema of what the function returns, and one for
values it is not used for (`function.rs:75-86`; not built if it is always used). Left out: `extras_schema` and computed
fields (see `Model/SerFields.lean`), unions, wrap functions and formats (`Model/SerFunction.lean`). -/
inductive Schema (α : Type) where
  | any
  | leaf (l : Leaf)
  | nullable (s : Schema α)
  | list (name : Text) (filter : Filt) (item : Schema α)
  | set (name : Text) (frozen : Bool) (item : Schema α)
  | dict (name : Text) (filter : Filt) (key value : Schema α)
  | model (name : Text) (cls : Nat) (hasExtra root : Bool) (inner : Schema α)
  | fields (mode : FieldsMode) (fs : Fields α)
  | ref (d : Nat)
  | dataclass (name : Text) (cls : Nat) (names : List Text) (inner : Schema α)
  | jsonOrPython (json python : Schema α)
  | tuple (name : Text) (filter : Filt) (variadic : Option Nat) (items : Items α)
  | function (info : FuncInfo) (ret other : Schema α)
/-- The fields of a model or typed dict; a field without serialiser is left out of the output. -/
inductive Fields (α : Type) where
  | nil
  | cons (info : FieldInfo) (s : Schema α) (rest : Fields α)
  | excluded (info : FieldInfo) (rest : Fields α)
/-- The items of a tuple. -/
inductive Items (α : Type) where
  | nil
  | cons (s : Schema α) (rest : Items α)
end

/-- What the serialisers see of objects besides `World`: `ObTypeLookup::is_type`, `extract` to `Int`, `bool` and
`f64`, `is_truthy`, and `downcast` to `str`, `bytes`, `list`, `set` or `frozenset`, `dict`; `hash` of a key as `isize`
(`src/serializers/filter.rs:138`); for models `allow_value` (`model.rs:123-130`), the attribute `root`, and the inner
value (`get_inner_value`, 132-158: the `__dict__`, without the fields not set if those are excluded, with the extras if
there are any); the dicts read from an inner value (`extract_dicts`, `src/serializers/fields.rs:135-146`); a new dict
from new keys; the equality of keys; the `__pydantic_serializer__` of objects; the definitions; and the platform of the
recursion guard. Then: the text of an object of a type written as text (`none` for other objects:
`datetime_etc.rs:16-38`, `url.rs:44, 46`); the two forms of a `timedelta` (`EitherTimedelta::try_from`,
`src/input/datetime.rs:135-147`); `is_type` for `Decimal`; `extract_i64`, and whether a list of expected values contains
an object; the exact instances of an enum class, and the attribute `value`; for dataclasses `allow_value`
(`dataclass.rs:110-116`) and the dict of the attributes (`get_inner_value`, 118-127); `downcast` to `tuple`; and the
functions, which get the model if they serialise a field, the value, and if they want it the `SerializationInfo`
(`function.rs:153-169`): `include`, `exclude` and what is read from `Extra`. Simplification: a function gives the same
result whenever it gets the same arguments; `field_name` is left out. -/
structure Env (α : Type) where
  world : World α
  platform : Guard.Platform
  isType : Kind → α → IsType
  extractInt : α → Option Int
  extractBool : α → Option Bool
  extractFloat : α → Option F64
  truthy : α → Bool
  asStr : α → Option PyStr
  asBytes : α → Option (List UInt8)
  asList : α → Option (List α)
  asSet : Bool → α → Option (List α)
  asDict : α → Option (List (α × α))
  hash : Filter.Key → Int
  allow : Nat → Check → α → Except SErr Bool
  root : α → Except SErr α
  inner : α → Bool → Bool → Except SErr α
  dicts : FieldsMode → α → Option (List (α × α) × Option (List (α × α)))
  mkDict : List (Py α × Py α) → Except SErr (Py α)
  keyEq : Py α → Py α → Bool
  serializerOf : α → Except SErr (Config × Schema α)
  defs : Nat → Schema α
  asText : TextKind → α → Option (Except SErr Text) := fun _ _ => Option.none
  asTimedelta : α → Option (Except SErr Text × Except SErr F64) := fun _ => Option.none
  isDecimal : α → Bool := fun _ => false
  extractI64 : α → Option Int := fun _ => Option.none
  among : Nat → α → Except SErr Bool := fun _ _ => .ok false
  isEnum : Nat → α → Bool := fun _ _ => false
  enumValue : α → Except SErr α := fun _ => .error .type
  dcAllow : Nat → Check → α → Except SErr Bool := fun _ _ _ => .ok false
  dcInner : List Text → α → Except SErr α := fun _ _ => .error .type
  asTuple : α → Option (List α) := fun _ => Option.none
  callFn : Nat → Option α → α → Option (Option FVal × Option FVal × Extra α) → Except FuncErr α :=
    fun _ _ _ _ => .error (.other .type)

variable {α : Type}

/-- What a serialiser calls that is not part of it: inference, and the definitions. -/
structure Recs (α : Type) where
  infer : SerFn α
  ref : Nat → SerFn α

/-- `TypeSerializer::json_key`, `src/serializers/shared.rs:281`. -/
abbrev KeyFn (α : Type) := Extra α → α → M Text

/-- `value.is_none()`, and `is_type(value, ObType::None)`. -/
def isNone (W : World α) (a : α) : Bool :=
  match W.shape a with
  | .none => true
  | _ => false

/-- `on_fallback_py` and `on_fallback_ser`, `src/serializers/extra.rs:412-447`: nothing for `None`, an error while
checking the choice of a union, otherwise a warning. -/
def onFallback (W : World α) (name : Text) (x : Extra α) (a : α) : M Unit := fun st =>
  if isNone W a then (.ok (), st)
  else if x.check ≠ .none then (.error .unexpected, st)
  else (.ok (), { st with warnings := st.warnings ++ [name] })

/-- The `Err(_)` arm all serialisers end with: warn, then infer. -/
def fallbackPy (E : Env α) (R : Recs α) (name : Text) (x : Extra α) (a : α) (incl excl : Option FVal) : M (Py α) :=
  fun st =>
    match onFallback E.world name x a st with
    | (.error e, st1) => (.error e, st1)
    | (.ok (), st1) => R.infer.py x a incl excl st1

/-- The same for JSON. -/
def fallbackJson (E : Env α) (R : Recs α) (name : Text) (x : Extra α) (a : α) (incl excl : Option FVal) : M Json :=
  fun st =>
    match onFallback E.world name x a st with
    | (.error e, st1) => (.error e, st1)
    | (.ok (), st1) => R.infer.json x a incl excl st1

/-- `infer_json_key`, as a step. -/
def keyM (E : Env α) : KeyFn α := fun x a st => (inferKey E.world x a, st)

/-- The `json_key` of a serialiser whose type the key is not of: warn, then infer. -/
def fallbackKey (E : Env α) (name : Text) : KeyFn α := fun x a st =>
  match onFallback E.world name x a st with
  | (.error e, st1) => (.error e, st1)
  | (.ok (), st1) => (inferKey E.world x a, st1)

/-- `invalid_as_json_key`, `src/serializers/shared.rs:283-296`. -/
def invalidAsJsonKey (E : Env α) (name : Text) : KeyFn α := fun x a st =>
  if isNone E.world a then (.error .notValidKey, st) else fallbackKey E name x a st

/-- `AnySerializer`, `src/serializers/type_serializers/any.rs:48-76`. -/
def anySer (R : Recs α) : SerFn α := R.infer

/-- `NoneSerializer`, `src/serializers/type_serializers/simple.rs:38-87`. -/
def noneSer (E : Env α) (R : Recs α) : SerFn α where
  py x a incl excl st :=
    if isNone E.world a then (.ok .none, st) else fallbackPy E R "none".toList x a incl excl st
  json x a incl excl st :=
    if isNone E.world a then (.ok .null, st) else fallbackJson E R "none".toList x a incl excl st

/-- `to_python` of the macro `build_simple_serializer`, `src/serializers/type_serializers/simple.rs:115-137`, and of
`FloatSerializer`, `float.rs:67-89`; `conv` is `extract` and the new object. -/
def simplePy (E : Env α) (R : Recs α) (k : Kind) (name : Text) (conv : α → Option (Py α)) (x : Extra α) (a : α)
    (incl excl : Option FVal) : M (Py α) := fun st =>
  match E.isType k a with
  | .exact => (.ok (.same a), st)
  | .subclass =>
    if x.check = .strict then (.error .unexpected, st)
    else
      match x.mode with
      | .json =>
        match conv a with
        | some o => (.ok o, st)
        | Option.none => (.error .type, st)
      | .python => R.infer.py x a incl excl st
  | .no => fallbackPy E R name x a incl excl st

/-- `serde_serialize` of the macro `build_simple_serializer`, `simple.rs:149-166`, and of `FloatSerializer`,
`float.rs:101-117`. -/
def simpleJson (E : Env α) (R : Recs α) (name : Text) (conv : α → Option Json) (x : Extra α) (a : α)
    (incl excl : Option FVal) : M Json := fun st =>
  match conv a with
  | some d => (.ok d, st)
  | Option.none => fallbackJson E R name x a incl excl st

/-- `StrSerializer::to_python`, `src/serializers/type_serializers/string.rs:37-56`. -/
def strPy (E : Env α) (R : Recs α) (x : Extra α) (a : α) (incl excl : Option FVal) : M (Py α) := fun st =>
  match E.isType .str a with
  | .exact => (.ok (.same a), st)
  | .subclass =>
    match x.mode with
    | .json =>
      match E.asStr a with
      | some (.utf8 t) => (.ok (.str (.utf8 t)), st)
      | some (.lone _) => (.error .unicode, st)
      | Option.none => (.error .type, st)
    | .python => (.ok (.same a), st)
  | .no => fallbackPy E R "str".toList x a incl excl st

/-- `StrSerializer::serde_serialize`, `string.rs:68-83`. -/
def strSerJson (E : Env α) (R : Recs α) (x : Extra α) (a : α) (incl excl : Option FVal) : M Json := fun st =>
  match E.asStr a with
  | some s => (strJson s, st)
  | Option.none => fallbackJson E R "str".toList x a incl excl st

/-- `BytesSerializer::to_python`, `src/serializers/type_serializers/bytes.rs:35-56`. -/
def bytesPy (E : Env α) (R : Recs α) (m : Bytes.Mode) (x : Extra α) (a : α) (incl excl : Option FVal) : M (Py α) :=
  fun st =>
    match E.asBytes a with
    | some b =>
      match x.mode with
      | .json =>
        match Bytes.bytesToString E.world.fromUtf8 m b with
        | some t => (.ok (.str (.utf8 t)), st)
        | Option.none => (.error .unicode, st)
      | .python => (.ok (.same a), st)
    | Option.none => fallbackPy E R "bytes".toList x a incl excl st

/-- `BytesSerializer::serde_serialize`, `bytes.rs:68-83`. -/
def bytesJson (E : Env α) (R : Recs α) (m : Bytes.Mode) (x : Extra α) (a : α) (incl excl : Option FVal) : M Json :=
  fun st =>
    match E.asBytes a with
    | some b =>
      match Bytes.serializeBytes E.world.fromUtf8 m b with
      | some t => (.ok (.str t), st)
      | Option.none => (.error .unicode, st)
    | Option.none => fallbackJson E R "bytes".toList x a incl excl st

/-- `to_python` of the types written as text, `src/serializers/type_serializers/datetime_etc.rs:60-81`,
`url.rs:36-54`. -/
def textPy (E : Env α) (R : Recs α) (k : TextKind) (x : Extra α) (a : α) (incl excl : Option FVal) : M (Py α) :=
  fun st =>
    match E.asText k a with
    | some t =>
      match x.mode with
      | .json =>
        match t with
        | .ok t => (.ok (.str (.utf8 t)), st)
        | .error e => (.error e, st)
      | .python => (.ok (.same a), st)
    | Option.none => fallbackPy E R k.name x a incl excl st

/-- `serde_serialize` of the same, `datetime_etc.rs:93-113`, `url.rs:66-83`. -/
def textJson (E : Env α) (R : Recs α) (k : TextKind) (x : Extra α) (a : α) (incl excl : Option FVal) : M Json :=
  fun st =>
    match E.asText k a with
    | some t =>
      match t with
      | .ok t => (.ok (.str t), st)
      | .error e => (.error e, st)
    | Option.none => fallbackJson E R k.name x a incl excl st

/-- `TimeDeltaSerializer`, `src/serializers/type_serializers/timedelta.rs:36-53, 65-82`. -/
def timedeltaSer (E : Env α) (R : Recs α) (m : TimedeltaMode) : SerFn α where
  py x a incl excl st :=
    match x.mode with
    | .json =>
      match E.asTimedelta a with
      | some (iso, seconds) => (timedeltaPy m iso seconds, st)
      | Option.none => fallbackPy E R "timedelta".toList x a incl excl st
    | .python => R.infer.py x a incl excl st
  json x a incl excl st :=
    match E.asTimedelta a with
    | some (iso, seconds) => (timedeltaJson m iso seconds, st)
    | Option.none => fallbackJson E R "timedelta".toList x a incl excl st

/-- `DecimalSerializer`, `src/serializers/type_serializers/decimal.rs:32-47, 59-76`. Simplification: inference sees an
object for which `is_type` holds as a `Decimal` too. -/
def decimalSer (E : Env α) (R : Recs α) : SerFn α where
  py x a incl excl st :=
    if E.isDecimal a then R.infer.py x a incl excl st else fallbackPy E R "decimal".toList x a incl excl st
  json x a incl excl st :=
    if E.isDecimal a then R.infer.json x a incl excl st else fallbackJson E R "decimal".toList x a incl excl st

/-- `OutputValue`, `src/serializers/type_serializers/literal.rs:72-77`. -/
inductive LiteralOut where
  | int (i : Int)
  | str (t : Text)
  | ok
  | fallback

/-- The part of `LiteralSerializer::check` for values that are neither integers nor strings, `literal.rs:99-103`. -/
def literalOthers (E : Env α) (l : LiteralInfo) (a : α) : Except SErr LiteralOut :=
  match l.others with
  | some n =>
    match E.among n a with
    | .error e => .error e
    | .ok true => .ok .ok
    | .ok false => .ok .fallback
  | Option.none => .ok .fallback

/-- The part of `LiteralSerializer::check` for strings and other values, `literal.rs:89-103`. -/
def literalRest (E : Env α) (l : LiteralInfo) (a : α) : Except SErr LiteralOut :=
  if l.strs.isEmpty then literalOthers E l a
  else
    match E.asStr a with
    | some (.utf8 t) => if l.strs.contains t then .ok (.str t) else literalOthers E l a
    | some (.lone _) => .error .unicode
    | Option.none => literalOthers E l a

/-- `LiteralSerializer::check`, `literal.rs:80-107`: nothing is checked outside the choices of a union. -/
def literalCheck (E : Env α) (l : LiteralInfo) (x : Extra α) (a : α) : Except SErr LiteralOut :=
  if x.check ≠ .none then
    if !l.ints.isEmpty && E.isType .bool a = .no then
      match E.extractI64 a with
      | some i => if l.ints.contains i then .ok (.int i) else literalRest E l a
      | Option.none => literalRest E l a
    else literalRest E l a
  else .ok .ok

/-- `LiteralSerializer`, `src/serializers/type_serializers/literal.rs:113-136, 150-167`. -/
def literalSer (E : Env α) (R : Recs α) (l : LiteralInfo) : SerFn α where
  py x a incl excl st :=
    match literalCheck E l x a with
    | .error e => (.error e, st)
    | .ok (.int i) => (.ok (match x.mode with | .json => .int i | .python => .same a), st)
    | .ok (.str t) => (.ok (match x.mode with | .json => .str (.utf8 t) | .python => .same a), st)
    | .ok .ok => R.infer.py x a incl excl st
    | .ok .fallback => fallbackPy E R l.name x a incl excl st
  json x a incl excl st :=
    match literalCheck E l x a with
    | .error e => (.error e, st)
    | .ok (.int i) => (.ok (.int i), st)
    | .ok (.str t) => (.ok (.str t), st)
    | .ok .ok => R.infer.json x a incl excl st
    | .ok .fallback => fallbackJson E R l.name x a incl excl st

/-- `EnumSerializer`, `src/serializers/type_serializers/enum_.rs:52-76, 95-113`; `s` writes the attribute `value`. -/
def enumSer (E : Env α) (R : Recs α) (cls : Nat) (s : SerFn α) : SerFn α where
  py x a incl excl st :=
    if E.isEnum cls a then
      match x.mode with
      | .json =>
        match E.enumValue a with
        | .error e => (.error e, st)
        | .ok v => s.py x v incl excl st
      | .python => (.ok (.same a), st)
    else fallbackPy E R "enum".toList x a incl excl st
  json x a incl excl st :=
    if E.isEnum cls a then
      match E.enumValue a with
      | .error e => (.error e, st)
      | .ok v => s.json x v incl excl st
    else fallbackJson E R "enum".toList x a incl excl st

/-- Serialisers of scalars. A new `bool` is one of the two objects Python has; here it is written as the object it was
made of, which `bool` cannot be subclassed away from. -/
def leafSer (E : Env α) (R : Recs α) : Leaf → SerFn α
  | .none => noneSer E R
  | .bool =>
    { py := simplePy E R .bool "bool".toList (fun a => (E.extractBool a).map fun _ => .same a)
      json := simpleJson E R "bool".toList (fun a => (E.extractBool a).map .bool) }
  | .int =>
    { py := simplePy E R .int "int".toList (fun a => (E.extractInt a).map .int)
      json := simpleJson E R "int".toList (fun a => (E.extractInt a).map .int) }
  | .float m =>
    { py := simplePy E R .float "float".toList (fun a => (E.extractFloat a).map .float)
      json := simpleJson E R "float".toList (fun a => (E.extractFloat a).map (serializeF64 m)) }
  | .str => { py := strPy E R, json := strSerJson E R }
  | .bytes m => { py := bytesPy E R m, json := bytesJson E R m }
  | .text k => { py := textPy E R k, json := textJson E R k }
  | .timedelta m => timedeltaSer E R m
  | .decimal => decimalSer E R
  | .literal l => literalSer E R l
  | .enum cls => enumSer E R cls R.infer
  | .enumOf cls sub => enumSer E R cls (leafSer E R sub)

/-- `NullableSerializer`, `src/serializers/type_serializers/nullable.rs:35-76`. -/
def nullableSer (E : Env α) (s : SerFn α) : SerFn α where
  py x a incl excl st := if isNone E.world a then (.ok .none, st) else s.py x a incl excl st
  json x a incl excl st := if isNone E.world a then (.ok .null, st) else s.json x a incl excl st

/-- The loop of `ListSerializer::to_python`, `src/serializers/type_serializers/list.rs:64-75`. -/
def listPy (f : Filt) (s : SerFn α) (x : Extra α) (len : Nat) (incl excl : Option FVal) : Nat → List α → M (List (Py α))
  | _, [], st => (.ok [], st)
  | i, v :: vs, st =>
    match indexFilter f i incl excl (some len) with
    | .error e => (.error (.filter e), st)
    | .ok Option.none => listPy f s x len incl excl (i + 1) vs st
    | .ok (some (ni, ne)) =>
      match s.py x v ni ne st with
      | (.error e, st1) => (.error e, st1)
      | (.ok o, st1) =>
        match listPy f s x len incl excl (i + 1) vs st1 with
        | (.error e, st2) => (.error e, st2)
        | (.ok os, st2) => (.ok (o :: os), st2)

/-- The loop of `ListSerializer::serde_serialize`, `list.rs:104-119`. -/
def listJson (f : Filt) (s : SerFn α) (x : Extra α) (len : Nat) (incl excl : Option FVal) : Nat → List α → M (List Json)
  | _, [], st => (.ok [], st)
  | i, v :: vs, st =>
    match indexFilter f i incl excl (some len) with
    | .error e => (.error (.filter e), st)
    | .ok Option.none => listJson f s x len incl excl (i + 1) vs st
    | .ok (some (ni, ne)) =>
      match s.json x v ni ne st with
      | (.error e, st1) => (.error e, st1)
      | (.ok o, st1) =>
        match listJson f s x len incl excl (i + 1) vs st1 with
        | (.error e, st2) => (.error e, st2)
        | (.ok os, st2) => (.ok (o :: os), st2)

/-- `ListSerializer`, `src/serializers/type_serializers/list.rs:52-133`. Simplification: `len(value)` is the length of
the list. -/
def listSer (E : Env α) (R : Recs α) (name : Text) (f : Filt) (s : SerFn α) : SerFn α where
  py x a incl excl st :=
    match E.asList a with
    | some xs => mapM .list (listPy f s x xs.length incl excl 0 xs st)
    | Option.none => fallbackPy E R name x a incl excl st
  json x a incl excl st :=
    match E.asList a with
    | some xs => mapM .arr (listJson f s x xs.length incl excl 0 xs st)
    | Option.none => fallbackJson E R name x a incl excl st

/-- The serialisers of the items of a tuple of `n` items, `src/serializers/type_serializers/tuple.rs:208-215, 224`. A
variadic index that is out of bounds makes a panic when the serialiser is built (45-47), so does not occur here. -/
def tupleSers {S : Type} (variadic : Option Nat) (ss : List S) (n : Nat) : List S :=
  match variadic with
  | Option.none => ss
  | some v =>
    ss.take v ++ (match ss[v]? with | some s => List.replicate (n + 1 - ss.length) s | Option.none => []) ++ ss.drop (v + 1)

/-- The warning about items beyond those of the schema, `tuple.rs:231`. -/
def extraItemsWarning : Text := "Unexpected extra items present in tuple".toList

/-- The same, in the state. -/
def warnExtraItems (st : St) : St := { st with warnings := st.warnings ++ [extraItemsWarning] }

/-- The loops of `for_each_tuple_item_and_serializer` in `to_python`, `tuple.rs:77-82, 186-206, 224-248`; `more` if items
beyond the serialisers are written, by inference. -/
def tuplePy (R : Recs α) (f : Filt) (more : Bool) (x : Extra α) (len : Nat) (incl excl : Option FVal) :
    Nat → List (SerFn α) → List α → M (List (Py α))
  | _, _, [], st => (.ok [], st)
  | i, [], v :: vs, st =>
    if more then listPy f R.infer x len incl excl i (v :: vs) (warnExtraItems st) else (.ok [], st)
  | i, s :: ss, v :: vs, st =>
    match indexFilter f i incl excl (some len) with
    | .error e => (.error (.filter e), st)
    | .ok Option.none => tuplePy R f more x len incl excl (i + 1) ss vs st
    | .ok (some (ni, ne)) =>
      match s.py x v ni ne st with
      | (.error e, st1) => (.error e, st1)
      | (.ok o, st1) =>
        match tuplePy R f more x len incl excl (i + 1) ss vs st1 with
        | (.error e, st2) => (.error e, st2)
        | (.ok os, st2) => (.ok (o :: os), st2)

/-- The same in `serde_serialize`, `tuple.rs:132-141`. -/
def tupleJson (R : Recs α) (f : Filt) (more : Bool) (x : Extra α) (len : Nat) (incl excl : Option FVal) :
    Nat → List (SerFn α) → List α → M (List Json)
  | _, _, [], st => (.ok [], st)
  | i, [], v :: vs, st =>
    if more then listJson f R.infer x len incl excl i (v :: vs) (warnExtraItems st) else (.ok [], st)
  | i, s :: ss, v :: vs, st =>
    match indexFilter f i incl excl (some len) with
    | .error e => (.error (.filter e), st)
    | .ok Option.none => tupleJson R f more x len incl excl (i + 1) ss vs st
    | .ok (some (ni, ne)) =>
      match s.json x v ni ne st with
      | (.error e, st1) => (.error e, st1)
      | (.ok o, st1) =>
        match tupleJson R f more x len incl excl (i + 1) ss vs st1 with
        | (.error e, st2) => (.error e, st2)
        | (.ok os, st2) => (.ok (o :: os), st2)

/-- The check for the choices of a union, `tuple.rs:216-222`. -/
def tupleRefused (variadic : Option Nat) (x : Extra α) (expected got : Nat) : Bool :=
  variadic.isNone && decide (x.check = .strict) && decide (got ≠ expected)

/-- `TupleSerializer`, `src/serializers/type_serializers/tuple.rs:63-94, 117-150`. -/
def tupleSer (E : Env α) (R : Recs α) (name : Text) (f : Filt) (variadic : Option Nat) (ss : List (SerFn α)) :
    SerFn α where
  py x a incl excl st :=
    match E.asTuple a with
    | some xs =>
      if tupleRefused variadic x ss.length xs.length then (.error .unexpected, st)
      else
        mapM (match x.mode with | .json => .list | .python => .tuple)
          (tuplePy R f variadic.isNone x xs.length incl excl 0 (tupleSers variadic ss xs.length) xs st)
    | Option.none => fallbackPy E R name x a incl excl st
  json x a incl excl st :=
    match E.asTuple a with
    | some xs =>
      if tupleRefused variadic x ss.length xs.length then (.error .unexpected, st)
      else
        mapM .arr (tupleJson R f variadic.isNone x xs.length incl excl 0 (tupleSers variadic ss xs.length) xs st)
    | Option.none => fallbackJson E R name x a incl excl st

/-- `WhenUsed::should_use`, `src/serializers/type_serializers/format.rs:38-45`. -/
def shouldUse (E : Env α) (w : WhenUsed) (x : Extra α) (a : α) : Bool :=
  match w with
  | .always => true
  | .unlessNone => !isNone E.world a
  | .json => decide (x.mode = .json)
  | .jsonUnlessNone => decide (x.mode = .json) && !isNone E.world a

/-- The call of the function, `src/serializers/type_serializers/function.rs:153-169`. Without a model a function for fields
is not called, which is an error (162). -/
def callFunction (E : Env α) (fi : FuncInfo) (x : Extra α) (a : α) (incl excl : Option FVal) : Except FuncErr α :=
  let info := if fi.infoArg then some (incl, excl, x) else Option.none
  if fi.isField then
    match x.model with
    | some m => E.callFn fi.func (some m) a info
    | Option.none => .error (.other .type)
  else E.callFn fi.func Option.none a info

/-- `on_error`, `function.rs:191-209`. -/
def onFuncError (x : Extra α) (e : FuncErr) : M Unit := fun st =>
  match e with
  | .unexpected m =>
    if x.check ≠ .none then (.error .unexpected, st) else (.ok (), { st with warnings := st.warnings ++ [m] })
  | .other e => (.error e, st)

/-- `FunctionPlainSerializer`, `function.rs:143-174, 214-233, 253-276`. -/
def functionSer (E : Env α) (R : Recs α) (fi : FuncInfo) (ret other : SerFn α) : SerFn α where
  py x a incl excl st :=
    if shouldUse E fi.whenUsed x a then
      match callFunction E fi x a incl excl with
      | .ok b => ret.py x b Option.none Option.none st
      | .error e =>
        match onFuncError x e st with
        | (.error e, st1) => (.error e, st1)
        | (.ok (), st1) => R.infer.py x a incl excl st1
    else other.py x a Option.none Option.none st
  json x a incl excl st :=
    if shouldUse E fi.whenUsed x a then
      match callFunction E fi x a incl excl with
      | .ok b => ret.json x b Option.none Option.none st
      | .error e =>
        match onFuncError x e st with
        | (.error e, st1) => (.error e, st1)
        | (.ok (), st1) => R.infer.json x a incl excl st1
    else other.json x a Option.none Option.none st

/-- The loop of `SetSerializer::to_python`, `src/serializers/type_serializers/set_frozenset.rs:64-67`: every item gets
the filters of the set. -/
def setPy (s : SerFn α) (x : Extra α) (incl excl : Option FVal) : List α → M (List (Py α))
  | [], st => (.ok [], st)
  | v :: vs, st =>
    match s.py x v incl excl st with
    | (.error e, st1) => (.error e, st1)
    | (.ok o, st1) =>
      match setPy s x incl excl vs st1 with
      | (.error e, st2) => (.error e, st2)
      | (.ok os, st2) => (.ok (o :: os), st2)

/-- The loop of `SetSerializer::serde_serialize`, `set_frozenset.rs:98-102`. -/
def setJson (s : SerFn α) (x : Extra α) (incl excl : Option FVal) : List α → M (List Json)
  | [], st => (.ok [], st)
  | v :: vs, st =>
    match s.json x v incl excl st with
    | (.error e, st1) => (.error e, st1)
    | (.ok o, st1) =>
      match setJson s x incl excl vs st1 with
      | (.error e, st2) => (.error e, st2)
      | (.ok os, st2) => (.ok (o :: os), st2)

/-- `SetSerializer` and `FrozenSetSerializer`, `src/serializers/type_serializers/set_frozenset.rs:49-120`. -/
def setSer (E : Env α) (R : Recs α) (name : Text) (frozen : Bool) (s : SerFn α) : SerFn α where
  py x a incl excl st :=
    match E.asSet frozen a with
    | some xs =>
      match setPy s x incl excl xs st with
      | (.error e, st1) => (.error e, st1)
      | (.ok os, st1) =>
        match x.mode with
        | .json => (.ok (.list os), st1)
        | .python => (if frozen then E.world.mkFrozenset os else E.world.mkSet os, st1)
    | Option.none => fallbackPy E R name x a incl excl st
  json x a incl excl st :=
    match E.asSet frozen a with
    | some xs => mapM .arr (setJson s x incl excl xs st)
    | Option.none => fallbackJson E R name x a incl excl st

/-- The loop of `DictSerializer::to_python`, mode `json`, `src/serializers/type_serializers/dict.rs:88-99`. -/
def dictPyJson (E : Env α) (f : Filt) (k : KeyFn α) (v : SerFn α) (x : Extra α)
    (incl excl : Option FVal) : List (α × α) → List (Text × Py α) → M (List (Text × Py α))
  | [], acc, st => (.ok acc, st)
  | (kk, vv) :: rest, acc, st =>
    match keyFilter E.hash f (E.world.filterKey kk) incl excl with
    | .error e => (.error (.filter e), st)
    | .ok Option.none => dictPyJson E f k v x incl excl rest acc st
    | .ok (some (ni, ne)) =>
      match k x kk st with
      | (.error e, st1) => (.error e, st1)
      | (.ok t, st1) =>
        match v.py x vv ni ne st1 with
        | (.error e, st2) => (.error e, st2)
        | (.ok o, st2) => dictPyJson E f k v x incl excl rest (Keys.setItem t o acc) st2

/-- The loop of `DictSerializer::to_python`, other modes, `dict.rs:88-99`. -/
def dictPyPython (E : Env α) (f : Filt) (k v : SerFn α) (x : Extra α) (incl excl : Option FVal) :
    List (α × α) → M (List (Py α × Py α))
  | [], st => (.ok [], st)
  | (kk, vv) :: rest, st =>
    match keyFilter E.hash f (E.world.filterKey kk) incl excl with
    | .error e => (.error (.filter e), st)
    | .ok Option.none => dictPyPython E f k v x incl excl rest st
    | .ok (some (ni, ne)) =>
      match k.py x kk Option.none Option.none st with
      | (.error e, st1) => (.error e, st1)
      | (.ok o, st1) =>
        match v.py x vv ni ne st1 with
        | (.error e, st2) => (.error e, st2)
        | (.ok w, st2) =>
          match dictPyPython E f k v x incl excl rest st2 with
          | (.error e, st3) => (.error e, st3)
          | (.ok es, st3) => (.ok ((o, w) :: es), st3)

/-- The loop of `DictSerializer::serde_serialize`, `dict.rs:126-141`. -/
def dictJson (E : Env α) (f : Filt) (k : KeyFn α) (v : SerFn α) (x : Extra α) (incl excl : Option FVal) :
    List (α × α) → M (List (Text × Json))
  | [], st => (.ok [], st)
  | (kk, vv) :: rest, st =>
    match keyFilter E.hash f (E.world.filterKey kk) incl excl with
    | .error e => (.error (.filter e), st)
    | .ok Option.none => dictJson E f k v x incl excl rest st
    | .ok (some (ni, ne)) =>
      match k x kk st with
      | (.error e, st1) => (.error e, st1)
      | (.ok t, st1) =>
        match v.json x vv ni ne st1 with
        | (.error e, st2) => (.error e, st2)
        | (.ok o, st2) =>
          match dictJson E f k v x incl excl rest st2 with
          | (.error e, st3) => (.error e, st3)
          | (.ok es, st3) => (.ok ((t, o) :: es), st3)

/-- Entries with text keys as a Python dict. -/
def textDict (es : List (Text × Py α)) : Py α := .dict (es.map fun e => (.str (.utf8 e.1), e.2))

/-- `DictSerializer`, `src/serializers/type_serializers/dict.rs:75-154`. -/
def dictSer (E : Env α) (R : Recs α) (name : Text) (f : Filt) (kk : KeyFn α) (k v : SerFn α) : SerFn α where
  py x a incl excl st :=
    match E.asDict a with
    | some es =>
      match x.mode with
      | .json => mapM textDict (dictPyJson E f kk v x incl excl es [] st)
      | .python =>
        match dictPyPython E f k v x incl excl es st with
        | (.error e, st1) => (.error e, st1)
        | (.ok os, st1) => (E.mkDict os, st1)
    | Option.none => fallbackPy E R name x a incl excl st
  json x a incl excl st :=
    match E.asDict a with
    | some es => mapM .obj (dictJson E f kk v x incl excl es st)
    | Option.none => fallbackJson E R name x a incl excl st

/-- `DuckTypingSerMode::next_mode`, `src/serializers/extra.rs:60-66`. -/
def Duck.next : Duck → Duck
  | .schemaBased => .schemaBased
  | .needsInference => .inferred
  | .inferred => .needsInference

/-- The `model_extra` of a model, `src/serializers/type_serializers/model.rs:173-180`. -/
def Extra.forModel (x : Extra α) (a : α) : Extra α := { x with model := some a, duck := x.duck.next }

/-- `ModelSerializer`, `src/serializers/type_serializers/model.rs:164-264`. -/
def modelSer (E : Env α) (R : Recs α) (name : Text) (cls : Nat) (hasExtra root : Bool) (s : SerFn α) : SerFn α where
  py x a incl excl st :=
    let mx := x.forModel a
    if mx.duck = .inferred then R.infer.py mx a incl excl st
    else if root then
      match E.root a with
      | .error e => (.error (if mx.check ≠ .none then .unexpected else e), st)
      | .ok r => s.py mx r incl excl st
    else
      match E.allow cls mx.check a with
      | .error e => (.error e, st)
      | .ok true =>
        match E.inner a mx.excludeUnset hasExtra with
        | .error e => (.error e, st)
        | .ok b => s.py mx b incl excl st
      | .ok false => fallbackPy E R name mx a incl excl st
  json x a incl excl st :=
    let mx := x.forModel a
    if mx.duck = .inferred then R.infer.json mx a incl excl st
    else if root then
      match E.root a with
      | .error e => (.error e, st)
      | .ok r => s.json mx r incl excl st
    else
      match E.allow cls mx.check a with
      | .error e => (.error e, st)
      | .ok true =>
        match E.inner a mx.excludeUnset hasExtra with
        | .error e => (.error e, st)
        | .ok b => s.json mx b incl excl st
      | .ok false => fallbackJson E R name mx a incl excl st

/-- `DataclassSerializer`, `src/serializers/type_serializers/dataclass.rs:133-169, 180-225`. Simplification: all
attributes are read before the first is written, also when the inner serialiser is one of fields (`known_dataclass_iter`,
236-248, reads each when it is due). -/
def dataclassSer (E : Env α) (R : Recs α) (name : Text) (cls : Nat) (names : List Text) (s : SerFn α) : SerFn α where
  py x a incl excl st :=
    let dx := x.forModel a
    if dx.duck = .inferred then R.infer.py dx a incl excl st
    else
      match E.dcAllow cls dx.check a with
      | .error e => (.error e, st)
      | .ok true =>
        match E.dcInner names a with
        | .error e => (.error e, st)
        | .ok b => s.py dx b incl excl st
      | .ok false => fallbackPy E R name dx a incl excl st
  json x a incl excl st :=
    let dx := x.forModel a
    if dx.duck = .inferred then R.infer.json dx a incl excl st
    else
      match E.dcAllow cls dx.check a with
      | .error e => (.error e, st)
      | .ok true =>
        match E.dcInner names a with
        | .error e => (.error e, st)
        | .ok b => s.json dx b incl excl st
      | .ok false => fallbackJson E R name dx a incl excl st

/-- `JsonOrPythonSerializer`, `src/serializers/type_serializers/json_or_python.rs:51-59, 65-74`: the mode of the call
plays no part. -/
def jsonOrPythonSer (json python : SerFn α) : SerFn α where
  py := python.py
  json := json.json

/-- `key_str`, `src/serializers/fields.rs:461-463`. -/
def keyStr (W : World α) (k : α) : Except SErr Text :=
  match W.shape k with
  | .str s | .strSub s =>
    match s with
    | .utf8 t => .ok t
    | .lone _ => .error .unicode
  | _ => .error .type

/-- `get_key_py` and `get_key_json`, `src/serializers/fields.rs:56-72`, with `serialize_by_alias_or`,
`src/serializers/extra.rs:207-209`. -/
def FieldInfo.key (f : FieldInfo) (x : Extra α) : Text :=
  if (x.byAlias.or f.byAlias).getD false then
    match f.alias with
    | some a => a
    | Option.none => f.name
  else f.name

/-- `self.fields.get(key)`, `src/serializers/fields.rs:163, 258`. -/
def getField (fs : List (FieldInfo × Option (SerFn α))) (t : Text) : Option (FieldInfo × Option (SerFn α)) :=
  fs.find? fun f => f.1.name == t

/-- The count of required fields seen, `src/serializers/fields.rs:165-169, 191-193`. -/
def countReq (f : Option FieldInfo) (used : Nat) : Nat :=
  match f with
  | some f => if f.required then used + 1 else used
  | Option.none => used

/-- The loop of `main_to_python`, `src/serializers/fields.rs:158-211`. All keys are strings (`key_str`). -/
def mainPy (E : Env α) (R : Recs α) (mode : FieldsMode) (fs : List (FieldInfo × Option (SerFn α))) (x : Extra α)
    (incl excl : Option FVal) : List (α × α) → List (Text × Py α) → Nat → M (List (Text × Py α) × Nat)
  | [], acc, used, st => (.ok (acc, used), st)
  | (k, v) :: rest, acc, used, st =>
    match keyStr E.world k with
    | .error e => (.error e, st)
    | .ok t =>
      if x.excludeNone && isNone E.world v then
        mainPy E R mode fs x incl excl rest acc (countReq ((getField fs t).map (·.1)) used) st
      else
        match keyFilter E.hash (.schema Option.none Option.none) (E.world.filterKey k) incl excl with
        | .error e => (.error (.filter e), st)
        | .ok Option.none => mainPy E R mode fs x incl excl rest acc used st
        | .ok (some (ni, ne)) =>
          match getField fs t with
          | some (info, some s) =>
            match s.py x v ni ne st with
            | (.error e, st1) => (.error e, st1)
            | (.ok o, st1) =>
              mainPy E R mode fs x incl excl rest (Keys.setItem (info.key x) o acc)
                (countReq (some info) used) st1
          | some (info, Option.none) =>
            mainPy E R mode fs x incl excl rest acc (countReq (some info) used) st
          | Option.none =>
            if mode = .typedDictAllow then
              match R.infer.py x v ni ne st with
              | (.error e, st1) => (.error e, st1)
              | (.ok o, st1) => mainPy E R mode fs x incl excl rest (Keys.setItem t o acc) used st1
            else if x.check = .strict then (.error .unexpected, st)
            else mainPy E R mode fs x incl excl rest acc used st

/-- The loop of `main_serde_serialize`, `src/serializers/fields.rs:245-279`. -/
def mainJson (E : Env α) (R : Recs α) (mode : FieldsMode) (fs : List (FieldInfo × Option (SerFn α))) (x : Extra α)
    (incl excl : Option FVal) : List (α × α) → M (List (Text × Json))
  | [], st => (.ok [], st)
  | (k, v) :: rest, st =>
    if x.excludeNone && isNone E.world v then mainJson E R mode fs x incl excl rest st
    else
      match keyStr E.world k with
      | .error e => (.error e, st)
      | .ok t =>
        match keyFilter E.hash (.schema Option.none Option.none) (E.world.filterKey k) incl excl with
        | .error e => (.error (.filter e), st)
        | .ok Option.none => mainJson E R mode fs x incl excl rest st
        | .ok (some (ni, ne)) =>
          match getField fs t with
          | some (info, some s) =>
            match s.json x v ni ne st with
            | (.error e, st1) => (.error e, st1)
            | (.ok o, st1) =>
              match mainJson E R mode fs x incl excl rest st1 with
              | (.error e, st2) => (.error e, st2)
              | (.ok os, st2) => (.ok ((info.key x, o) :: os), st2)
          | some (_, Option.none) => mainJson E R mode fs x incl excl rest st
          | Option.none =>
            if mode = .typedDictAllow then
              match inferKey E.world x k with
              | .error e => (.error e, st)
              | .ok kt =>
                match R.infer.json x v ni ne st with
                | (.error e, st1) => (.error e, st1)
                | (.ok o, st1) =>
                  match mainJson E R mode fs x incl excl rest st1 with
                  | (.error e, st2) => (.error e, st2)
                  | (.ok os, st2) => (.ok ((kt, o) :: os), st2)
            else mainJson E R mode fs x incl excl rest st

/-- The text of a new object used as key, if it is a string. -/
def Py.keyText (W : World α) : Py α → Option Text
  | .str (.utf8 t) => some t
  | .same a =>
    match keyStr W a with
    | .ok t => some t
    | .error _ => Option.none
  | _ => Option.none

/-- Whether two objects are the same key: texts are compared, for the rest `keyEq` tells. -/
def sameKey (E : Env α) (k k' : Py α) : Bool :=
  match k.keyText E.world, k'.keyText E.world with
  | some t, some t' => t == t'
  | _, _ => E.keyEq k k'

/-- `PyDict::set_item`. -/
def setItemPy (E : Env α) (k o : Py α) : List (Py α × Py α) → List (Py α × Py α)
  | [] => [(k, o)]
  | (k', o') :: rest => if sameKey E k k' then (k', o) :: rest else (k', o') :: setItemPy E k o rest

/-- The loop over `__pydantic_extra__`, `src/serializers/fields.rs:365-380`. -/
def extrasPy (E : Env α) (R : Recs α) (x : Extra α) (incl excl : Option FVal) :
    List (α × α) → List (Py α × Py α) → M (List (Py α × Py α))
  | [], acc, st => (.ok acc, st)
  | (k, v) :: rest, acc, st =>
    if x.excludeNone && isNone E.world v then extrasPy E R x incl excl rest acc st
    else
      match keyFilter E.hash (.schema Option.none Option.none) (E.world.filterKey k) incl excl with
      | .error e => (.error (.filter e), st)
      | .ok Option.none => extrasPy E R x incl excl rest acc st
      | .ok (some (ni, ne)) =>
        match R.infer.py x v ni ne st with
        | (.error e, st1) => (.error e, st1)
        | (.ok o, st1) => extrasPy E R x incl excl rest (setItemPy E (.same k) o acc) st1

/-- The loop over `__pydantic_extra__`, `src/serializers/fields.rs:438-450`. -/
def extrasJson (E : Env α) (R : Recs α) (x : Extra α) (incl excl : Option FVal) :
    List (α × α) → M (List (Text × Json))
  | [], st => (.ok [], st)
  | (k, v) :: rest, st =>
    if x.excludeNone && isNone E.world v then extrasJson E R x incl excl rest st
    else
      match keyFilter E.hash (.schema Option.none Option.none) (E.world.filterKey k) incl excl with
      | .error e => (.error (.filter e), st)
      | .ok Option.none => extrasJson E R x incl excl rest st
      | .ok (some (ni, ne)) =>
        match inferKey E.world x k with
        | .error e => (.error e, st)
        | .ok t =>
          match R.infer.json x v ni ne st with
          | (.error e, st1) => (.error e, st1)
          | (.ok o, st1) =>
            match extrasJson E R x incl excl rest st1 with
            | (.error e, st2) => (.error e, st2)
            | (.ok os, st2) => (.ok ((t, o) :: os), st2)

/-- The model an inner value belongs to, `src/serializers/fields.rs:337, 412`. -/
def Extra.modelOr (x : Extra α) (a : α) : Extra α := { x with model := x.model.or (some a) }

/-- `GeneralFieldsSerializer`, `src/serializers/fields.rs:326-459`. -/
def fieldsSer (E : Env α) (R : Recs α) (mode : FieldsMode) (fs : List (FieldInfo × Option (SerFn α))) : SerFn α where
  py x a incl excl st :=
    if x.model.isNone && x.duck.next = .inferred then R.infer.py (x.forModel a) a incl excl st
    else
      match E.dicts mode a with
      | Option.none => fallbackPy E R "general-fields".toList x a incl excl st
      | some (main, extras) =>
        match mainPy E R mode fs (x.modelOr a) incl excl main [] 0 st with
        | (.error e, st1) => (.error e, st1)
        | (.ok (acc, used), st1) =>
          if x.check ≠ .none ∧ ¬(x.excludeUnset || x.excludeNone || excl.isSome) = true
              ∧ used < (fs.filter (·.1.required)).length then (.error .unexpected, st1)
          else
            match extras with
            | Option.none => (.ok (textDict acc), st1)
            | some extras =>
              mapM .dict (extrasPy E R x incl excl extras (acc.map fun e => (.str (.utf8 e.1), e.2)) st1)
  json x a incl excl st :=
    match E.dicts mode a with
    | Option.none => fallbackJson E R "general-fields".toList x a incl excl st
    | some (main, extras) =>
      if x.model.isNone && x.duck.next = .inferred then R.infer.json (x.forModel a) a incl excl st
      else
        match mainJson E R mode fs (x.modelOr a) incl excl main st with
        | (.error e, st1) => (.error e, st1)
        | (.ok es, st1) =>
          match extras with
          | Option.none => (.ok (.obj es), st1)
          | some extras => mapM (fun es' => .obj (es ++ es')) (extrasJson E R x incl excl extras st1)

/-- `DefinitionRefSerializer`, `src/serializers/type_serializers/definitions.rs:84-124`. Keys take no guard. -/
def refSer (E : Env α) (R : Recs α) (d : Nat) : SerFn α where
  py x a incl excl := guarded E.platform (E.world.identity a, d) .error ((R.ref d).py x a incl excl)
  json x a incl excl := guarded E.platform (E.world.identity a, d) .error ((R.ref d).json x a incl excl)

/-- `json_key` of an enum, `src/serializers/type_serializers/enum_.rs:78-93`; `key` is that of the attribute
`value`. -/
def enumKey (E : Env α) (cls : Nat) (key : KeyFn α) : KeyFn α := fun x a st =>
  if E.isEnum cls a then
    match E.enumValue a with
    | .error e => (.error e, st)
    | .ok v => key x v st
  else fallbackKey E "enum".toList x a st

/-- `json_key` of the scalars: `simple.rs:57-65, 139-147`, `float.rs:91-99`, `string.rs:58-66`, `bytes.rs:58-66`,
`datetime_etc.rs:83-91`, `url.rs:56-64`, `timedelta.rs:55-63`, `decimal.rs:49-57`, `literal.rs:138-148`. -/
def leafKey (E : Env α) : Leaf → KeyFn α
  | .none => fun x a st => if isNone E.world a then (.ok Keys.noneJsonKey, st) else fallbackKey E "none".toList x a st
  | .bool => fun x a st =>
    if E.isType .bool a ≠ .no then (.ok (Keys.boolJsonKey (E.truthy a)), st) else fallbackKey E "bool".toList x a st
  | .int => fun x a st =>
    if E.isType .int a ≠ .no then (toStrJsonKey E.world a, st) else fallbackKey E "int".toList x a st
  | .float _ => fun x a st =>
    if E.isType .float a ≠ .no then (toStrJsonKey E.world a, st) else fallbackKey E "float".toList x a st
  | .str => fun x a st =>
    match E.asStr a with
    | some s => (.ok s.lossy, st)
    | Option.none => fallbackKey E "str".toList x a st
  | .bytes m => fun x a st =>
    match E.asBytes a with
    | some b =>
      match Bytes.bytesToString E.world.fromUtf8 m b with
      | some t => (.ok t, st)
      | Option.none => (.error .unicode, st)
    | Option.none => fallbackKey E "bytes".toList x a st
  | .text k => fun x a st =>
    match E.asText k a with
    | some t => (t, st)
    | Option.none => fallbackKey E k.name x a st
  | .timedelta m => fun x a st =>
    match E.asTimedelta a with
    | some (iso, seconds) => (timedeltaKey E.world m iso seconds, st)
    | Option.none => fallbackKey E "timedelta".toList x a st
  | .decimal => fun x a st => if E.isDecimal a then keyM E x a st else fallbackKey E "decimal".toList x a st
  | .literal l => fun x a st =>
    match literalCheck E l x a with
    | .error e => (.error e, st)
    | .ok (.int i) => (.ok (toString i).toList, st)
    | .ok (.str t) => (.ok t, st)
    | .ok .ok => keyM E x a st
    | .ok .fallback => fallbackKey E l.name x a st
  | .enum cls => enumKey E cls (keyM E)
  | .enumOf cls sub => enumKey E cls (leafKey E sub)

/-- `json_key` of a model, `src/serializers/type_serializers/model.rs:208-215`. -/
def modelKey (E : Env α) (name : Text) (cls : Nat) : KeyFn α := fun x a st =>
  match E.allow cls x.check a with
  | .error e => (.error e, st)
  | .ok true =>
    match E.world.hash a with
    | .error e => (.error e, st)
    | .ok () => (toStrJsonKey E.world a, st)
  | .ok false => fallbackKey E name x a st

/-- `json_key` of a dataclass, `src/serializers/type_serializers/dataclass.rs:171-178`. -/
def dataclassKey (E : Env α) (name : Text) (cls : Nat) : KeyFn α := fun x a st =>
  match E.dcAllow cls x.check a with
  | .error e => (.error e, st)
  | .ok true =>
    match E.world.hash a with
    | .error e => (.error e, st)
    | .ok () => (toStrJsonKey E.world a, st)
  | .ok false => fallbackKey E name x a st

/-- The loop over the items of a tuple beyond those of the schema in `json_key`, `tuple.rs:101-106, 226-248`. -/
def extraKeys (E : Env α) (f : Filt) (x : Extra α) (len : Nat) : Nat → List α → Keys.KeyBuilder → M Text
  | _, [], b, st => (.ok b.key, st)
  | i, v :: vs, b, st =>
    match indexFilter f i Option.none Option.none (some len) with
    | .error e => (.error (.filter e), st)
    | .ok Option.none => extraKeys E f x len (i + 1) vs b st
    | .ok (some _) =>
      match inferKey E.world x v with
      | .error e => (.error e, st)
      | .ok t => extraKeys E f x len (i + 1) vs (b.push t) st

/-- The loop over the items in `json_key`, `tuple.rs:101-106, 186-206, 224-248`. -/
def tupleKeys (E : Env α) (f : Filt) (more : Bool) (x : Extra α) (len : Nat) :
    Nat → List (KeyFn α) → List α → Keys.KeyBuilder → M Text
  | _, _, [], b, st => (.ok b.key, st)
  | i, [], v :: vs, b, st =>
    if more then extraKeys E f x len i (v :: vs) b (warnExtraItems st) else (.ok b.key, st)
  | i, k :: ks, v :: vs, b, st =>
    match indexFilter f i Option.none Option.none (some len) with
    | .error e => (.error (.filter e), st)
    | .ok Option.none => tupleKeys E f more x len (i + 1) ks vs b st
    | .ok (some _) =>
      match k x v st with
      | (.error e, st1) => (.error e, st1)
      | (.ok t, st1) => tupleKeys E f more x len (i + 1) ks vs (b.push t) st1

/-- `json_key` of a tuple, `tuple.rs:96-115`. -/
def tupleSerKey (E : Env α) (name : Text) (f : Filt) (variadic : Option Nat) (ks : List (KeyFn α)) : KeyFn α :=
  fun x a st =>
    match E.asTuple a with
    | some xs =>
      if tupleRefused variadic x ks.length xs.length then (.error .unexpected, st)
      else tupleKeys E f variadic.isNone x xs.length 0 (tupleSers variadic ks xs.length) xs .new st
    | Option.none => fallbackKey E name x a st

/-- `json_key` of a function, `function.rs:235-251`. -/
def functionKey (E : Env α) (fi : FuncInfo) (ret other : KeyFn α) : KeyFn α := fun x a st =>
  if shouldUse E fi.whenUsed x a then
    match callFunction E fi x a Option.none Option.none with
    | .ok b => ret x b st
    | .error e =>
      match onFuncError x e st with
      | (.error e, st1) => (.error e, st1)
      | (.ok (), st1) => (inferKey E.world x a, st1)
  else other x a st

mutual
/-- `json_key` of the serialisers; `ref` is that of the definitions (`definitions.rs:101-103`). -/
def keyWith (E : Env α) (ref : Nat → KeyFn α) : Schema α → KeyFn α
  | .any => keyM E
  | .leaf l => leafKey E l
  | .nullable s => fun x a st =>
    if isNone E.world a then (.ok Keys.noneJsonKey, st) else keyWith E ref s x a st
  | .list name _ _ => invalidAsJsonKey E name
  | .set name _ _ => invalidAsJsonKey E name
  | .dict name _ _ _ => invalidAsJsonKey E name
  | .model name cls _ _ _ => modelKey E name cls
  | .fields _ _ => invalidAsJsonKey E "fields".toList
  | .ref d => ref d
  | .dataclass name cls _ _ => dataclassKey E name cls
  | .jsonOrPython json _ => keyWith E ref json
  | .tuple name f v items => tupleSerKey E name f v (keyItems E ref items)
  | .function fi ret other => functionKey E fi (keyWith E ref ret) (keyWith E ref other)
/-- The same for the items of a tuple. -/
def keyItems (E : Env α) (ref : Nat → KeyFn α) : Items α → List (KeyFn α)
  | .nil => []
  | .cons s rest => keyWith E ref s :: keyItems E ref rest
end

/-- `json_key` of a definition. Keys take no guard: only the stack bounds how often definitions lead to definitions. -/
def refKey (E : Env α) : Nat → Nat → KeyFn α
  | 0, _ => fun _ _ st => (.error .overflow, st)
  | n + 1, d => keyWith E (refKey E n) (E.defs d)

/-- `json_key` of the serialiser of a schema. -/
def keyOf (E : Env α) (s : Schema α) : KeyFn α := keyWith E (refKey E E.world.stack) s

mutual
/-- The serialiser of a schema: `CombinedSerializer` dispatches to the ones above, `src/serializers/shared.rs`. -/
def build (E : Env α) (R : Recs α) : Schema α → SerFn α
  | .any => anySer R
  | .leaf l => leafSer E R l
  | .nullable s => nullableSer E (build E R s)
  | .list name f s => listSer E R name f (build E R s)
  | .set name frozen s => setSer E R name frozen (build E R s)
  | .dict name f k v => dictSer E R name f (keyOf E k) (build E R k) (build E R v)
  | .model name cls hasExtra root s => modelSer E R name cls hasExtra root (build E R s)
  | .fields mode fs => fieldsSer E R mode (buildFields E R fs)
  | .ref d => refSer E R d
  | .dataclass name cls names s => dataclassSer E R name cls names (build E R s)
  | .jsonOrPython json python => jsonOrPythonSer (build E R json) (build E R python)
  | .tuple name f v items => tupleSer E R name f v (buildItems E R items)
  | .function fi ret other => functionSer E R fi (build E R ret) (build E R other)
/-- The serialisers of the fields. -/
def buildFields (E : Env α) (R : Recs α) : Fields α → List (FieldInfo × Option (SerFn α))
  | .nil => []
  | .cons info s rest => (info, some (build E R s)) :: buildFields E R rest
  | .excluded info rest => (info, Option.none) :: buildFields E R rest
/-- The serialisers of the items of a tuple. -/
def buildItems (E : Env α) (R : Recs α) : Items α → List (SerFn α)
  | .nil => []
  | .cons s rest => build E R s :: buildItems E R rest
end

/-- The `__pydantic_serializer__` of an object, built. -/
def serializerFn (E : Env α) (R : Recs α) (a : α) : Except SErr (Config × SerFn α) :=
  match E.serializerOf a with
  | .error e => .error e
  | .ok (config, s) => .ok (config, build E R s)

/-- Inference and definitions, with fuel for `n` calls inside each other; `bottom` stands for what is beyond. -/
def recs (E : Env α) (bottom : Recs α) : Nat → Recs α
  | 0 => bottom
  | n + 1 =>
    { infer :=
        { py := inferPy E.world E.platform (recs E bottom n).infer (serializerFn E (recs E bottom n))
          json := inferJson E.world E.platform (recs E bottom n).infer (serializerFn E (recs E bottom n)) }
      ref := fun d => build E (recs E bottom n) (E.defs d) }

/-- `SchemaSerializer::to_python`, `src/serializers/mod.rs:103-156`, without the final check of the warnings; with
`.any` also `to_jsonable_python`, 291-320. -/
def toPython (E : Env α) (bottom : Recs α) (n : Nat) (s : Schema α) (x : Extra α) (a : α) (incl excl : Option FVal) :
    M (Py α) := (build E (recs E bottom n) s).py x a incl excl

/-- `SchemaSerializer::to_json`, `src/serializers/mod.rs:158-212`, and with `.any` also `to_json`, 240-282: the document
written. -/
def toJson (E : Env α) (bottom : Recs α) (n : Nat) (s : Schema α) (x : Extra α) (a : α) (incl excl : Option FVal) :
    M Json := (build E (recs E bottom n) s).json x a incl excl

/-- The state at the start, `src/serializers/mod.rs:134-135`. -/
def freshSt : St := ⟨Guard.State.init, []⟩

end PC.Infer
