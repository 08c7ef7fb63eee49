import Verif.Model.Bytes
import Verif.Model.Filter
import Verif.Model.Keys
import Verif.Model.RecursionGuard

/-
Serialisation by inference: `src/serializers/infer.rs`, with the parts of `src/serializers/extra.rs`,
`config.rs` and `shared.rs` it uses.

Objects are opaque (`α`) and seen through a `World`, so that object graphs may share objects and have cycles.
-/

namespace PC.Infer
open PC.Float (F64)
open PC.Filter (FVal indexFilter keyFilter)

/-- Text as written to JSON. -/
abbrev Text := List Char

/-- A Python `str`: it has a UTF-8 form, or holds lone surrogates, when only `to_string_lossy` gives a text. -/
inductive PyStr where
  | utf8 (t : Text)
  | lone (lossy : Text)

/-- `PyString::to_string_lossy`. -/
def PyStr.lossy : PyStr → Text
  | .utf8 t => t
  | .lone t => t

/-- What a serialisation raises: the recursion guard (`src/serializers/extra.rs:194-197`), an object of unknown type
(`infer.rs:568-573`), text that is not UTF-8, an object of an unexpected type, the filters, a key that is not valid
(`infer.rs:661`), an exception of Python code, a panic, a stack overflow, an unexpected value in the choice of a union
(`src/serializers/errors.rs`).
Simplification: an error on its way through `serde` is a text (`py_err_se_err`, `se_err_py_err`); here it is kept. -/
inductive SErr where
  | cyclic
  | depth
  | unknownType
  | unicode
  | type
  | filter (e : Filter.Err)
  | notValidKey
  | python (n : Nat)
  | panic
  | overflow
  | unexpected
  deriving DecidableEq

/-- `TimedeltaMode`, `src/serializers/config.rs:87-92`. -/
inductive TimedeltaMode where
  | iso8601
  | float
  deriving DecidableEq

/-- `InfNanMode`, `src/serializers/config.rs:102-108`. -/
inductive InfNanMode where
  | null
  | constants
  | strings
  deriving DecidableEq

/-- `SerializationConfig`, `src/serializers/config.rs:17-23`. -/
structure Config where
  timedelta : TimedeltaMode
  bytes : Bytes.Mode
  infNan : InfNanMode

/-- `SerMode`, `src/serializers/extra.rs:295-301`; `SerMode::Other` is treated as `Python` everywhere. -/
inductive Mode where
  | python
  | json
  deriving DecidableEq

/-- `SerCheck`, `src/serializers/extra.rs:214-224`. -/
inductive Check where
  | none
  | strict
  | lax
  deriving DecidableEq

/-- `DuckTypingSerMode`, `src/serializers/extra.rs:31-41`. -/
inductive Duck where
  | schemaBased
  | needsInference
  | inferred
  deriving DecidableEq

/-- The part of `Extra` that matters here, `src/serializers/extra.rs:118-143`. `fallback` is the function given by
the user. Left out: `exclude_defaults`, `round_trip` (see `Model/SerFields.lean`), `field_name` and `context` (only
handed to functions). -/
structure Extra (α : Type) where
  mode : Mode
  config : Config
  check : Check
  serializeUnknown : Bool
  fallback : Option (α → Except SErr α)
  duck : Duck
  byAlias : Option Bool
  excludeNone : Bool
  excludeUnset : Bool
  model : Option α

/-- `SchemaSerializer::build_extra` when inference meets an object with a serialiser of its own: the configuration is
that of its class, the check and the model start afresh; `src/serializers/mod.rs:52-84`,
`src/serializers/extra.rs:145-182`. -/
def Extra.forSerializer {α : Type} (x : Extra α) (config : Config) : Extra α :=
  { x with config, check := .none, model := Option.none }

/-- An object by its `ObType` (`src/serializers/ob_type.rs:374-420`), with what the serialiser reads of it.
The types whose JSON form is one text (`Decimal`, `Datetime`, `Date`, `Time`, `Url`, `MultiHostUrl`, `Uuid`, `Complex`:
`datetime_to_string` and so on) are `text`. `extract_int` of a subclass of `int` may fail. A dataclass is given by
`any_dataclass_iter` (`src/serializers/shared.rs:391-418`), a generator by what its iteration yields.
Simplification: a subclass of `timedelta` that overrides `total_seconds` is left out. -/
inductive Shape (α : Type) where
  | none
  | bool (b : Bool)
  | int (i : Int)
  | intSub (i : Option Int)
  | float (f : F64)
  | floatSub (f : F64)
  | str (s : PyStr)
  | strSub (s : PyStr)
  | bytes (b : List UInt8)
  | bytearray (b : List UInt8)
  | list (xs : List α)
  | tuple (xs : List α)
  | set (xs : List α)
  | frozenset (xs : List α)
  | dict (es : List (α × α))
  | text (t : Except SErr Text)
  | timedelta (iso : Except SErr Text) (seconds : Except SErr F64)
  | pydantic
  | dataclass (fields : Except SErr (List (Except SErr (α × α))))
  | enum (value : Except SErr α)
  | generator (items : List (Except SErr α))
  | path
  | pattern (p : Except SErr α)
  | unknown

/-- What `to_python` returns: an object of the input (`same`), or a new one. `lazy` is the `SerializationIterator` a
generator is wrapped in (`src/serializers/type_serializers/generator.rs:128-176`). -/
inductive Py (α : Type) where
  | same (a : α)
  | none
  | int (i : Int)
  | float (f : F64)
  | str (s : PyStr)
  | list (xs : List (Py α))
  | tuple (xs : List (Py α))
  | set (xs : List (Py α))
  | frozenset (xs : List (Py α))
  | dict (es : List (Py α × Py α))
  | lazy (a : α) (incl excl : Option FVal)

/-- A JSON document, as handed to the writer: entries of an object in order, maybe with equal keys. -/
inductive Json where
  | null
  | bool (b : Bool)
  | int (i : Int)
  | float (f : F64)
  | str (t : Text)
  | arr (xs : List Json)
  | obj (es : List (Text × Json))

/-- The state of a serialisation: `SerRecursionState` and `CollectWarnings` (`src/serializers/extra.rs:382-387,
479-484`), both behind a shared reference with a mutex; of a warning only the name of the expected type is kept. -/
structure St where
  guard : Guard.State
  warnings : List Text

/-- A serialisation step: the result, and the state after it. -/
abbrev M (O : Type) := St → Except SErr O × St

/-- A serialiser: `to_python` and `serde_serialize` of `TypeSerializer` (`src/serializers/shared.rs:271-312`), or
`infer_to_python` and `infer_serialize`. -/
structure SerFn (α : Type) where
  py : Extra α → α → Option FVal → Option FVal → M (Py α)
  json : Extra α → α → Option FVal → Option FVal → M Json

/-- Python, as far as the serialiser sees it: the identity of an object (`as_ptr`), its type and contents, the key by
which filters look it up, `str`, `hash`, the `__qualname__` of its type; `PySet::new` and `PyFrozenSet::new` (which
hash the items); Rust's formatting of doubles and `from_utf8`; and the depth of recursion that fits on the stack. -/
structure World (α : Type) where
  identity : α → Nat
  shape : α → Shape α
  filterKey : α → Filter.Key
  str : α → Except SErr PyStr
  hash : α → Except SErr Unit
  qualname : α → Option Text
  mkSet : List (Py α) → Except SErr (Py α)
  mkFrozenset : List (Py α) → Except SErr (Py α)
  showF64 : F64 → Text
  fromUtf8 : List UInt8 → Option Text
  stack : Nat

variable {α : Type}

/-- `INFER_DEF_REF_ID`, `src/serializers/infer.rs:38`. -/
def inferDefRefId : Nat := 2 ^ 64 - 1

/-- `serialize_unknown`, `src/serializers/infer.rs:575-583`. -/
def serializeUnknown (W : World α) (a : α) : Text :=
  match W.str a with
  | .ok s => s.lossy
  | .error _ =>
    match W.qualname a with
    | some name => "<Unserializable ".toList ++ name ++ " object>".toList
    | Option.none => "<Unserializable object>".toList

/-- `to_str_json_key`, `src/serializers/type_serializers/simple.rs:179-181`. -/
def toStrJsonKey (W : World α) (a : α) : Except SErr Text :=
  match W.str a with
  | .ok s => .ok s.lossy
  | .error e => .error e

/-- `TimedeltaMode::json_key`, `src/serializers/config.rs:131-143`. -/
def timedeltaKey (W : World α) (m : TimedeltaMode) (iso : Except SErr Text) (seconds : Except SErr F64) :
    Except SErr Text :=
  match m with
  | .iso8601 => iso
  | .float =>
    match seconds with
    | .ok f => .ok (W.showF64 f)
    | .error e => .error e

/-- The loop over the items of a tuple used as key, `src/serializers/infer.rs:653-659`. -/
def tupleKey (key : α → Except SErr Text) : List α → Keys.KeyBuilder → Except SErr Text
  | [], b => .ok b.key
  | x :: xs, b =>
    match key x with
    | .error e => .error e
    | .ok t => tupleKey key xs (b.push t)

/-- `infer_json_key` and `infer_json_key_known`, `src/serializers/infer.rs:585-698`. The recursion takes no guard: its
depth is bounded by the stack alone, beyond which the process dies (`overflow`). -/
def inferKeyAt (W : World α) (x : Extra α) : Nat → α → Except SErr Text
  | 0, _ => .error .overflow
  | n + 1, a =>
    match W.shape a with
    | .none => .ok Keys.noneJsonKey
    | .int _ => toStrJsonKey W a
    | .intSub _ => toStrJsonKey W a
    | .float f | .floatSub f =>
      if !f.isFinite && x.config.infNan = .null then .ok Keys.noneJsonKey else toStrJsonKey W a
    | .bool b => .ok (Keys.boolJsonKey b)
    | .str s | .strSub s =>
      match s with
      | .utf8 t => .ok t
      | .lone _ => .error .unicode
    | .bytes b | .bytearray b =>
      match Bytes.bytesToString W.fromUtf8 x.config.bytes b with
      | some t => .ok t
      | Option.none => .error .unicode
    | .text t => t
    | .timedelta iso seconds => timedeltaKey W x.config.timedelta iso seconds
    | .tuple xs => tupleKey (inferKeyAt W x n) xs .new
    | .list _ | .set _ | .frozenset _ | .dict _ | .generator _ => .error .notValidKey
    | .dataclass _ | .pydantic =>
      match W.hash a with
      | .error e => .error e
      | .ok () => toStrJsonKey W a
    | .enum v =>
      match v with
      | .error e => .error e
      | .ok v => inferKeyAt W x n v
    | .path => toStrJsonKey W a
    | .pattern p =>
      match p with
      | .error e => .error e
      | .ok p => toStrJsonKey W p
    | .unknown =>
      match x.fallback with
      | some f =>
        match f a with
        | .error e => .error e
        | .ok next => inferKeyAt W x n next
      | Option.none => if x.serializeUnknown then .ok (serializeUnknown W a) else .error .unknownType

/-- `infer_json_key`, `src/serializers/infer.rs:585-588`. -/
def inferKey (W : World α) (x : Extra α) (a : α) : Except SErr Text := inferKeyAt W x W.stack a

/-- `Extra::recursion_guard` (`src/serializers/extra.rs:183-198`) around a body: the guard is taken for the value and
the node, dropped when the body is done. `refused` is what the caller does when it is not given. -/
def guarded {O : Type} (p : Guard.Platform) (k : Guard.Key) (refused : SErr → Except SErr O) (body : M O) : M O :=
  fun st =>
    match Guard.enter p st.guard k with
    | (.error .cyclic, g) => (refused .cyclic, { st with guard := g })
    | (.error .depth, g) => (refused .depth, { st with guard := g })
    | (.ok (), g) =>
      match body { st with guard := g } with
      | (r, st1) =>
        match Guard.leave st1.guard k with
        | Option.none => (.error .panic, st1)
        | some g1 => (r, { st1 with guard := g1 })

/-! ### To Python -/

/-- The macro `serialize_seq` of `infer_to_python_known`, `src/serializers/infer.rs:62-70`: the filters are not handed
on. -/
def pySeq (rec : SerFn α) (x : Extra α) : List α → M (List (Py α))
  | [], st => (.ok [], st)
  | v :: vs, st =>
    match rec.py x v Option.none Option.none st with
    | (.error e, st1) => (.error e, st1)
    | (.ok o, st1) =>
      match pySeq rec x vs st1 with
      | (.error e, st2) => (.error e, st2)
      | (.ok os, st2) => (.ok (o :: os), st2)

/-- The macro `serialize_seq_filter` of `infer_to_python_known`, `src/serializers/infer.rs:72-92`, and with
`len = none` the loop over a generator, 216-227. -/
def pySeqFilter (rec : SerFn α) (x : Extra α) (len : Option Nat) (incl excl : Option FVal) :
    Nat → List (Except SErr α) → M (List (Py α))
  | _, [], st => (.ok [], st)
  | _, .error e :: _, st => (.error e, st)
  | i, .ok v :: vs, st =>
    match indexFilter .any i incl excl len with
    | .error e => (.error (.filter e), st)
    | .ok Option.none => pySeqFilter rec x len incl excl (i + 1) vs st
    | .ok (some (ni, ne)) =>
      match rec.py x v ni ne st with
      | (.error e, st1) => (.error e, st1)
      | (.ok o, st1) =>
        match pySeqFilter rec x len incl excl (i + 1) vs st1 with
        | (.error e, st2) => (.error e, st2)
        | (.ok os, st2) => (.ok (o :: os), st2)

/-- `serialize_pairs_python` with `infer_json_key` as `key_transform`, `src/serializers/infer.rs:700-721, 166-168`. -/
def pyPairsJson (W : World α) (rec : SerFn α) (x : Extra α) (incl excl : Option FVal) :
    List (Except SErr (α × α)) → List (Text × Py α) → M (List (Text × Py α))
  | [], acc, st => (.ok acc, st)
  | .error e :: _, _, st => (.error e, st)
  | .ok (k, v) :: rest, acc, st =>
    match keyFilter (fun _ => 0) .any (W.filterKey k) incl excl with
    | .error e => (.error (.filter e), st)
    | .ok Option.none => pyPairsJson W rec x incl excl rest acc st
    | .ok (some (ni, ne)) =>
      match inferKey W x k with
      | .error e => (.error e, st)
      | .ok t =>
        match rec.py x v ni ne st with
        | (.error e, st1) => (.error e, st1)
        | (.ok o, st1) => pyPairsJson W rec x incl excl rest (Keys.setItem t o acc) st1

/-- `serialize_pairs_python` with `Ok` as `key_transform`, `src/serializers/infer.rs:700-721, 268`. The keys are those
of a dict, or names of fields, and remain distinct. -/
def pyPairs (W : World α) (rec : SerFn α) (x : Extra α) (incl excl : Option FVal) :
    List (Except SErr (α × α)) → M (List (Py α × Py α))
  | [], st => (.ok [], st)
  | .error e :: _, st => (.error e, st)
  | .ok (k, v) :: rest, st =>
    match keyFilter (fun _ => 0) .any (W.filterKey k) incl excl with
    | .error e => (.error (.filter e), st)
    | .ok Option.none => pyPairs W rec x incl excl rest st
    | .ok (some (ni, ne)) =>
      match rec.py x v ni ne st with
      | (.error e, st1) => (.error e, st1)
      | (.ok o, st1) =>
        match pyPairs W rec x incl excl rest st1 with
        | (.error e, st2) => (.error e, st2)
        | (.ok os, st2) => (.ok ((.same k, o) :: os), st2)

/-- `Result::map` for a result with a state. -/
def mapM {O P : Type} (f : O → P) : Except SErr O × St → Except SErr P × St
  | (.ok o, st) => (.ok (f o), st)
  | (.error e, st) => (.error e, st)

/-- `TimedeltaMode::either_delta_to_json`, `src/serializers/config.rs:115-129`. -/
def timedeltaPy (m : TimedeltaMode) (iso : Except SErr Text) (seconds : Except SErr F64) : Except SErr (Py α) :=
  match m with
  | .iso8601 =>
    match iso with
    | .ok t => .ok (.str (.utf8 t))
    | .error e => .error e
  | .float =>
    match seconds with
    | .ok f => .ok (.float f)
    | .error e => .error e

/-- `infer_to_python_known` once the guard is held, mode `json`, `src/serializers/infer.rs:116-248`. `rec` is
`infer_to_python`; `ser` is the `__pydantic_serializer__` of an object, its configuration and its serialiser
(94-113). -/
def pyJsonBody (W : World α) (rec : SerFn α) (ser : α → Except SErr (Config × SerFn α)) (x : Extra α) (a : α)
    (incl excl : Option FVal) : M (Py α) := fun st =>
  match W.shape a with
  | .none | .bool _ | .int _ | .str _ => (.ok (.same a), st)
  | .intSub i =>
    match i with
    | some i => (.ok (.int i), st)
    | Option.none => (.error .type, st)
  | .float f | .floatSub f =>
    if !f.isFinite && x.config.infNan = .null then (.ok .none, st) else (.ok (.float f), st)
  | .text t =>
    match t with
    | .ok t => (.ok (.str (.utf8 t)), st)
    | .error e => (.error e, st)
  | .strSub s =>
    match s with
    | .utf8 t => (.ok (.str (.utf8 t)), st)
    | .lone _ => (.error .unicode, st)
  | .bytes b | .bytearray b =>
    match Bytes.bytesToString W.fromUtf8 x.config.bytes b with
    | some t => (.ok (.str (.utf8 t)), st)
    | Option.none => (.error .unicode, st)
  | .tuple xs => mapM .list (pySeqFilter rec x (some xs.length) incl excl 0 (xs.map .ok) st)
  | .list xs => mapM .list (pySeqFilter rec x (some xs.length) incl excl 0 (xs.map .ok) st)
  | .set xs => mapM .list (pySeq rec x xs st)
  | .frozenset xs => mapM .list (pySeq rec x xs st)
  | .dict es =>
    mapM (fun es => .dict (es.map fun e => (.str (.utf8 e.1), e.2)))
      (pyPairsJson W rec x incl excl (es.map .ok) [] st)
  | .timedelta iso seconds => (timedeltaPy x.config.timedelta iso seconds, st)
  | .pydantic =>
    match ser a with
    | .error e => (.error e, st)
    | .ok (config, s) => s.py (x.forSerializer config) a incl excl st
  | .dataclass fields =>
    match fields with
    | .error e => (.error e, st)
    | .ok fields =>
      mapM (fun es => .dict (es.map fun e => (.str (.utf8 e.1), e.2))) (pyPairsJson W rec x incl excl fields [] st)
  | .enum v =>
    match v with
    | .error e => (.error e, st)
    | .ok v => rec.py x v incl excl st
  | .generator items => mapM .list (pySeqFilter rec x Option.none incl excl 0 items st)
  | .path =>
    match W.str a with
    | .ok s => (.ok (.str s), st)
    | .error e => (.error e, st)
  | .pattern p =>
    match p with
    | .ok p => (.ok (.same p), st)
    | .error e => (.error e, st)
  | .unknown =>
    match x.fallback with
    | some f =>
      match f a with
      | .error e => (.error e, st)
      | .ok next => rec.py x next incl excl st
    | Option.none =>
      if x.serializeUnknown then (.ok (.str (.utf8 (serializeUnknown W a))), st) else (.error .unknownType, st)

/-- `infer_to_python_known` once the guard is held, other modes, `src/serializers/infer.rs:249-296`. -/
def pyPythonBody (W : World α) (rec : SerFn α) (ser : α → Except SErr (Config × SerFn α)) (x : Extra α) (a : α)
    (incl excl : Option FVal) : M (Py α) := fun st =>
  match W.shape a with
  | .tuple xs => mapM .tuple (pySeqFilter rec x (some xs.length) incl excl 0 (xs.map .ok) st)
  | .list xs => mapM .list (pySeqFilter rec x (some xs.length) incl excl 0 (xs.map .ok) st)
  | .set xs =>
    match pySeq rec x xs st with
    | (.error e, st1) => (.error e, st1)
    | (.ok os, st1) => (W.mkSet os, st1)
  | .frozenset xs =>
    match pySeq rec x xs st with
    | (.error e, st1) => (.error e, st1)
    | (.ok os, st1) => (W.mkFrozenset os, st1)
  | .dict es => mapM .dict (pyPairs W rec x incl excl (es.map .ok) st)
  | .pydantic =>
    match ser a with
    | .error e => (.error e, st)
    | .ok (config, s) => s.py (x.forSerializer config) a incl excl st
  | .dataclass fields =>
    match fields with
    | .error e => (.error e, st)
    | .ok fields => mapM .dict (pyPairs W rec x incl excl fields st)
  | .generator _ => (.ok (.lazy a incl excl), st)
  | .unknown =>
    match x.fallback with
    | some f =>
      match f a with
      | .error e => (.error e, st)
      | .ok next => rec.py x next incl excl st
    | Option.none => (.ok (.same a), st)
  | _ => (.ok (.same a), st)

/-- `infer_to_python` and `infer_to_python_known`, `src/serializers/infer.rs:27-34, 40-299`. -/
def inferPy (W : World α) (p : Guard.Platform) (rec : SerFn α) (ser : α → Except SErr (Config × SerFn α))
    (x : Extra α) (a : α) (incl excl : Option FVal) : M (Py α) :=
  match x.mode with
  | .json => guarded p (W.identity a, inferDefRefId) .error (pyJsonBody W rec ser x a incl excl)
  | .python => guarded p (W.identity a, inferDefRefId) (fun _ => .ok (.same a)) (pyPythonBody W rec ser x a incl excl)

/-! ### To JSON -/

/-- The macro `serialize_seq` of `infer_serialize_known`, `src/serializers/infer.rs:378-388`: here the filters are
handed on as they are. -/
def jsonSeq (rec : SerFn α) (x : Extra α) (incl excl : Option FVal) : List α → M (List Json)
  | [], st => (.ok [], st)
  | v :: vs, st =>
    match rec.json x v incl excl st with
    | (.error e, st1) => (.error e, st1)
    | (.ok o, st1) =>
      match jsonSeq rec x incl excl vs st1 with
      | (.error e, st2) => (.error e, st2)
      | (.ok os, st2) => (.ok (o :: os), st2)

/-- The macro `serialize_seq_filter` of `infer_serialize_known`, `src/serializers/infer.rs:390-409`, and with
`len = none` the loop over a generator, 517-533. -/
def jsonSeqFilter (rec : SerFn α) (x : Extra α) (len : Option Nat) (incl excl : Option FVal) :
    Nat → List (Except SErr α) → M (List Json)
  | _, [], st => (.ok [], st)
  | _, .error e :: _, st => (.error e, st)
  | i, .ok v :: vs, st =>
    match indexFilter .any i incl excl len with
    | .error e => (.error (.filter e), st)
    | .ok Option.none => jsonSeqFilter rec x len incl excl (i + 1) vs st
    | .ok (some (ni, ne)) =>
      match rec.json x v ni ne st with
      | (.error e, st1) => (.error e, st1)
      | (.ok o, st1) =>
        match jsonSeqFilter rec x len incl excl (i + 1) vs st1 with
        | (.error e, st2) => (.error e, st2)
        | (.ok os, st2) => (.ok (o :: os), st2)

/-- `serialize_pairs_json`, `src/serializers/infer.rs:723-745`. -/
def jsonPairs (W : World α) (rec : SerFn α) (x : Extra α) (incl excl : Option FVal) :
    List (Except SErr (α × α)) → M (List (Text × Json))
  | [], st => (.ok [], st)
  | .error e :: _, st => (.error e, st)
  | .ok (k, v) :: rest, st =>
    match keyFilter (fun _ => 0) .any (W.filterKey k) incl excl with
    | .error e => (.error (.filter e), st)
    | .ok Option.none => jsonPairs W rec x incl excl rest st
    | .ok (some (ni, ne)) =>
      match inferKey W x k with
      | .error e => (.error e, st)
      | .ok t =>
        match rec.json x v ni ne st with
        | (.error e, st1) => (.error e, st1)
        | (.ok o, st1) =>
          match jsonPairs W rec x incl excl rest st1 with
          | (.error e, st2) => (.error e, st2)
          | (.ok os, st2) => (.ok ((t, o) :: os), st2)

/-- `serialize_f64`, `src/serializers/type_serializers/float.rs:34-50`. -/
def serializeF64 (m : InfNanMode) (f : F64) : Json :=
  if f.isFinite then .float f
  else
    match m with
    | .null => .null
    | .constants => .float f
    | .strings =>
      match f with
      | .nan => .str "NaN".toList
      | .posInf => .str "Infinity".toList
      | _ => .str "-Infinity".toList

/-- `TimedeltaMode::timedelta_serialize`, `src/serializers/config.rs:145-164`. -/
def timedeltaJson (m : TimedeltaMode) (iso : Except SErr Text) (seconds : Except SErr F64) : Except SErr Json :=
  match m with
  | .iso8601 =>
    match iso with
    | .ok t => .ok (.str t)
    | .error e => .error e
  | .float =>
    match seconds with
    | .ok f => .ok (.float f)
    | .error e => .error e

/-- A `PyString` extracted as `PyBackedStr` and written, `src/serializers/infer.rs:535-546`; `serialize_py_str`,
`src/serializers/type_serializers/string.rs:90-96`. -/
def strJson : PyStr → Except SErr Json
  | .utf8 t => .ok (.str t)
  | .lone _ => .error .unicode

/-- `infer_serialize_known` once the guard is held, `src/serializers/infer.rs:411-565`. -/
def jsonBody (W : World α) (rec : SerFn α) (ser : α → Except SErr (Config × SerFn α)) (x : Extra α) (a : α)
    (incl excl : Option FVal) : M Json := fun st =>
  match W.shape a with
  | .none => (.ok .null, st)
  | .int i => (.ok (.int i), st)
  | .intSub i =>
    match i with
    | some i => (.ok (.int i), st)
    | Option.none => (.error .type, st)
  | .bool b => (.ok (.bool b), st)
  | .float f | .floatSub f => (.ok (serializeF64 x.config.infNan f), st)
  | .text t =>
    match t with
    | .ok t => (.ok (.str t), st)
    | .error e => (.error e, st)
  | .str s | .strSub s => (strJson s, st)
  | .bytes b | .bytearray b =>
    match Bytes.serializeBytes W.fromUtf8 x.config.bytes b with
    | some t => (.ok (.str t), st)
    | Option.none => (.error .unicode, st)
  | .dict es => mapM .obj (jsonPairs W rec x incl excl (es.map .ok) st)
  | .list xs => mapM .arr (jsonSeqFilter rec x (some xs.length) incl excl 0 (xs.map .ok) st)
  | .tuple xs => mapM .arr (jsonSeqFilter rec x (some xs.length) incl excl 0 (xs.map .ok) st)
  | .set xs => mapM .arr (jsonSeq rec x incl excl xs st)
  | .frozenset xs => mapM .arr (jsonSeq rec x incl excl xs st)
  | .timedelta iso seconds => (timedeltaJson x.config.timedelta iso seconds, st)
  | .pydantic =>
    match ser a with
    | .error e => (.error e, st)
    | .ok (config, s) => s.json (x.forSerializer config) a incl excl st
  | .dataclass fields =>
    match fields with
    | .error e => (.error e, st)
    | .ok fields => mapM .obj (jsonPairs W rec x incl excl fields st)
  | .enum v =>
    match v with
    | .error e => (.error e, st)
    | .ok v => rec.json x v incl excl st
  | .generator items => mapM .arr (jsonSeqFilter rec x Option.none incl excl 0 items st)
  | .path =>
    match W.str a with
    | .ok s => (strJson s, st)
    | .error e => (.error e, st)
  | .pattern p =>
    match p with
    | .ok p =>
      match W.str p with
      | .ok s => (strJson s, st)
      | .error e => (.error e, st)
    | .error e => (.error e, st)
  | .unknown =>
    match x.fallback with
    | some f =>
      match f a with
      | .error e => (.error e, st)
      | .ok next => rec.json x next incl excl st
    | Option.none =>
      if x.serializeUnknown then (.ok (.str (serializeUnknown W a)), st) else (.error .unknownType, st)

/-- `infer_serialize` and `infer_serialize_known`, `src/serializers/infer.rs:331-366`. -/
def inferJson (W : World α) (p : Guard.Platform) (rec : SerFn α) (ser : α → Except SErr (Config × SerFn α))
    (x : Extra α) (a : α) (incl excl : Option FVal) : M Json :=
  guarded p (W.identity a, inferDefRefId)
    (fun e => if x.serializeUnknown then .ok (.str "...".toList) else .error e) (jsonBody W rec ser x a incl excl)

end PC.Infer
