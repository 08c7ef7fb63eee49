import Verif.Model.Filter

/-
Serialisers that call a Python function: `src/serializers/type_serializers/function.rs` (plain and wrap functions, the
handler given to a wrap function), `src/serializers/type_serializers/format.rs` (`when_used`, format strings,
`to-string`), the warnings of `src/serializers/extra.rs`, and the choice made by `CombinedSerializer::_build`,
`src/serializers/shared.rs:152-208`.

Python functions are programs that call the handler they are given any number of times and then return or raise
(`Prog`); the serialisers they are combined with are arbitrary (`Ser`). Left out: a handler kept by the function and
called after it has returned.
-/

namespace PC.SerFunction
open PC.Filter (FVal)

/-- A Python `str` that is UTF-8. -/
abbrev Text := List Char

/-- `WhenUsed`, `src/serializers/type_serializers/format.rs:17-23`. -/
inductive WhenUsed where
  | always
  | unlessNone
  | json
  | jsonUnlessNone
deriving DecidableEq, Repr

/-- `WhenUsed::new`, `format.rs:26-36`: the default if the key is absent, `none` for the schema error. -/
def WhenUsed.parse (s : Option String) (default : WhenUsed) : Option WhenUsed :=
  match s with
  | some "always" => some .always
  | some "unless-none" => some .unlessNone
  | some "json" => some .json
  | some "json-unless-none" => some .jsonUnlessNone
  | some _ => Option.none
  | Option.none => some default

/-- `SerMode`, `src/serializers/extra.rs:297-301`. -/
inductive Mode where
  | python
  | json
  | other (s : Text)
deriving DecidableEq, Repr

/-- `SerMode::is_json`, `extra.rs:314-316`. -/
def Mode.isJson : Mode → Bool
  | .json => true
  | _ => false

/-- `WarningsMode`, `extra.rs:345-349`. -/
inductive WarnMode where
  | none
  | warn
  | error
deriving DecidableEq, Repr

/-- `Extra`, `extra.rs:120-142`, without the parts that are written to (those are in `St`) and those no function
serialiser reads. `checking` is `check.enabled()`, `extra.rs:224-226`. -/
structure Extra (V : Type) where
  mode : Mode
  warnMode : WarnMode
  checking : Bool
  model : Option V
  fieldName : Option Text
  context : Option V
  byAlias : Option Bool
  excludeUnset : Bool
  excludeDefaults : Bool
  excludeNone : Bool
  roundTrip : Bool
  serializeAsAny : Bool

/-- `SerializationInfo`, `function.rs:540-562`. -/
structure Info (V : Type) where
  incl : Option FVal
  excl : Option FVal
  context : Option V
  mode : Mode
  byAlias : Option Bool
  excludeUnset : Bool
  excludeDefaults : Bool
  excludeNone : Bool
  roundTrip : Bool
  fieldName : Option Text
  serializeAsAny : Bool

/-- `PydanticSerializationUnexpectedValue`, `src/serializers/errors.rs:99-103`, as its `repr`. -/
abbrev Unexp := Text

/-- Exceptions: the two of `src/serializers/errors.rs`, `RecursionError`, `PydanticOmit`, the `RuntimeError`s raised by
the function serialisers themselves, an error of the filters, and any other. -/
inductive Exc (ε : Type) where
  | unexpected (u : Unexp)
  | serError (msg : Text)
  | recursion
  | omitted
  | runtime (msg : Text)
  | filter (e : Filter.Err)
  | user (e : ε)

/-- What a step ends with; a Rust panic is an outcome of its own. -/
inductive Res (X A : Type) where
  | ok (a : A)
  | err (e : X)
  | panic

/-- What serialisers write to: the warnings collected (`CollectWarnings`, `extra.rs:383-387`), the recursion guard
(`SerRecursionState`, 481-484), and the Python warnings issued so far, each the list of the warnings it shows. -/
structure St (G : Type) where
  warnings : List Unexp
  guard : G
  issued : List (List Unexp)

/-- A step of serialisation. -/
abbrev M (G X A : Type) := St G → Res X A × St G

/-- `TypeSerializer`, `src/serializers/shared.rs:272-317`: `to_python`, `json_key`, `serde_serialize` (whose errors are
texts) and `retry_with_lax_check`. -/
structure Ser (V J G ε : Type) where
  py : Extra V → V → Option FVal → Option FVal → M G (Exc ε) V
  key : Extra V → V → M G (Exc ε) Text
  json : Extra V → V → Option FVal → Option FVal → M G Text J
  retry : Bool

/-- What the code asks of Python objects: `is_none`; `AnySerializer`, which is inference; `str(value)`, `format(value,
s)`; a string as JSON (`serialize_py_str`), and, lossy, as a key; `str(exception)` as `PyErr` displays it; whether
`PyErr::warn` raises; the message of the warnings, `extra.rs:467-469`. -/
structure Env (V J G ε : Type) where
  isNone : V → Bool
  infer : Ser V J G ε
  str : V → Except (Exc ε) V
  format : V → Text → Except (Exc ε) V
  strJson : V → Except Text J
  null : J
  strKey : V → Except (Exc ε) Text
  lossyKey : V → Text
  display : Exc ε → Text
  warnRaises : List Unexp → Option (Exc ε)
  warningText : List Unexp → Text

variable {V J G ε : Type}

/-- `WhenUsed::should_use`, `format.rs:38-45`. -/
def WhenUsed.shouldUse (E : Env V J G ε) (w : WhenUsed) (v : V) (x : Extra V) : Bool :=
  match w with
  | .always => true
  | .unlessNone => !E.isNone v
  | .json => x.mode.isJson
  | .jsonUnlessNone => x.mode.isJson && !E.isNone v

/-- `WhenUsed::should_use_json`, `format.rs:48-53`. -/
def WhenUsed.shouldUseJson (E : Env V J G ε) (w : WhenUsed) (v : V) : Bool :=
  match w with
  | .always => true
  | .json => true
  | _ => !E.isNone v

/-- `CollectWarnings::register_warning`, `extra.rs:406-410`. -/
def registerWarning (m : WarnMode) (u : Unexp) (st : St G) : St G :=
  if m = .none then st else { st with warnings := st.warnings ++ [u] }

/-- `CollectWarnings::final_check`, `extra.rs:457-476`. -/
def finalCheck (E : Env V J G ε) (m : WarnMode) : M G (Exc ε) Unit := fun st =>
  if m = .none then (.ok (), st)
  else if st.warnings.isEmpty then (.ok (), st)
  else if m = .warn then
    ((match E.warnRaises st.warnings with
      | some e => .err e
      | Option.none => .ok ()), { st with issued := st.issued ++ [st.warnings] })
  else (.err (.serError (E.warningText st.warnings)), st)

/-- The arguments a function is called with, `function.rs:153-169` and 397-413: the model for a field serialiser, the
value, and the info if asked for. (The handler is what `Prog.call` calls.) -/
structure Args (V : Type) where
  model : Option V
  value : V
  info : Option (Info V)

/-- A Python function body: it returns, raises, or calls the handler with a value and perhaps an index or key, and goes
on with what that gave. -/
inductive Prog (V ε : Type) where
  | ret (v : V)
  | raise (e : Exc ε)
  | call (v : V) (key : Option Filter.Key) (k : Except (Exc ε) V → Prog V ε)

/-- The function of a schema, with the flags of `destructure_function_schema`, `function.rs:88-95`. -/
structure Fn (V ε : Type) where
  name : Text
  body : Args V → Prog V ε
  isField : Bool
  infoArg : Bool

/-- `SerializationInfo::new`, `function.rs:565-605`. -/
def mkInfo (x : Extra V) (incl excl : Option FVal) (isField : Bool) : Except (Exc ε) (Info V) :=
  if isField then
    match x.fieldName with
    | some n => .ok ⟨incl, excl, x.context, x.mode, x.byAlias, x.excludeUnset, x.excludeDefaults, x.excludeNone,
        x.roundTrip, some n, x.serializeAsAny⟩
    | Option.none => .error (.runtime
        "Model field context expected for field serialization info but no model field was found".toList)
  else .ok ⟨incl, excl, x.context, x.mode, x.byAlias, x.excludeUnset, x.excludeDefaults, x.excludeNone,
      x.roundTrip, Option.none, x.serializeAsAny⟩

/-- The arguments of the call, `function.rs:153-169` and 397-413. `kind` is `plain` or `wrap`. -/
def mkArgs (kind : Text) (f : Fn V ε) (x : Extra V) (v : V) (incl excl : Option FVal) : Except (Exc ε) (Args V) :=
  if f.isField then
    match x.model with
    | some m =>
      if f.infoArg then
        match mkInfo x incl excl true with
        | .ok i => .ok ⟨some m, v, some i⟩
        | .error e => .error e
      else .ok ⟨some m, v, Option.none⟩
    | Option.none => .error (.runtime ("Function ".toList ++ kind ++
        " serializer expected to be run inside the context of a model field but no model was found".toList))
  else if f.infoArg then
    match mkInfo x incl excl false with
    | .ok i => .ok ⟨Option.none, v, some i⟩
    | .error e => .error e
  else .ok ⟨Option.none, v, Option.none⟩

/-- The filters of `SerializationCallable::__call__`, `function.rs:504-509`: an index that is a `usize` goes through
`index_filter` without a length, any other key through `key_filter`, both of `AnyFilter`. -/
def handlerFilter (key : Filter.Key) (incl excl : Option FVal) : Except Filter.Err Filter.Next :=
  match key with
  | .i n => if 0 ≤ n ∧ n < 2 ^ 64 then Filter.indexFilter .any n.toNat incl excl Option.none
            else Filter.filter .any (.i n) 0 incl excl
  | .s s => Filter.filter .any (.s s) 0 incl excl

/-- `to_python` and then `final_check`, `function.rs:511-515` and 520-522. -/
def checked (E : Env V J G ε) (s : Ser V J G ε) (x : Extra V) (v : V) (incl excl : Option FVal) : M G (Exc ε) V :=
  fun st =>
    match s.py x v incl excl st with
    | (.panic, st1) => (.panic, st1)
    | (.err e, st1) => (.err e, st1)
    | (.ok o, st1) =>
      match finalCheck E x.warnMode st1 with
      | (.panic, st2) => (.panic, st2)
      | (.err e, st2) => (.err e, st2)
      | (.ok (), st2) => (.ok o, st2)

/-- `SerializationCallable::__call__`, `function.rs:494-524`. -/
def handler (E : Env V J G ε) (s : Ser V J G ε) (x : Extra V) (incl excl : Option FVal) (v : V)
    (key : Option Filter.Key) : M G (Exc ε) V := fun st =>
  match key with
  | some k =>
    match handlerFilter k incl excl with
    | .error e => (.err (.filter e), st)
    | .ok (some (ni, ne)) => checked E s x v ni ne st
    | .ok Option.none => (.err .omitted, st)
  | Option.none => checked E s x v incl excl st

/-- A function at work. The state is that of its handler; a panic inside the handler unwinds through the function. -/
def run (h : V → Option Filter.Key → M G (Exc ε) V) : Prog V ε → M G (Exc ε) V
  | .ret v, st => (.ok v, st)
  | .raise e, st => (.err e, st)
  | .call v key k, st =>
    match h v key st with
    | (.ok o, st1) => run h (k (.ok o)) st1
    | (.err e, st1) => run h (k (.error e)) st1
    | (.panic, st1) => (.panic, st1)

/-- A plain function has no handler: calling one it was not given is an error of the function's own; here it stops. -/
def noHandler : V → Option Filter.Key → M G (Exc ε) V := fun _ _ st => (.err .recursion, st)

/-- `func.call1` of a plain function, `function.rs:157-168`. -/
def runPlain (p : Prog V ε) : M G (Exc ε) V := run noHandler p

/-- `func.call1` of a wrap function, `function.rs:396-412`: the handler works on a copy of the warnings and of the
recursion guard (`SerializationCallable::new`, 448-461; `ExtraOwned::new`, `extra.rs:251-270`), so that only the Python
warnings issued outlast the call. -/
def runWrap (E : Env V J G ε) (s : Ser V J G ε) (x : Extra V) (incl excl : Option FVal) (p : Prog V ε) :
    M G (Exc ε) V := fun st =>
  match run (handler E s x incl excl) p st with
  | (r, st1) => (r, { st with issued := st1.issued })

/-- `FunctionPlainSerializer::call` and `FunctionWrapSerializer::call`, `function.rs:144-174` and 387-418; `false` with
the value itself if the function is not to be used. -/
def call (E : Env V J G ε) (w : WhenUsed) (kind : Text) (f : Fn V ε)
    (exec : Extra V → Option FVal → Option FVal → Prog V ε → M G (Exc ε) V)
    (x : Extra V) (v : V) (incl excl : Option FVal) : M G (Exc ε) (Bool × V) := fun st =>
  if w.shouldUse E v x then
    match mkArgs kind f x v incl excl with
    | .error e => (.err e, st)
    | .ok args =>
      match exec x incl excl (f.body args) st with
      | (.ok o, st1) => (.ok (true, o), st1)
      | (.err e, st1) => (.err e, st1)
      | (.panic, st1) => (.panic, st1)
  else (.ok (false, v), st)

/-- `on_error`, `function.rs:191-209`. -/
def onError (E : Env V J G ε) (name : Text) (x : Extra V) (e : Exc ε) : M G (Exc ε) Unit := fun st =>
  match e with
  | .unexpected u =>
    if x.checking then (.err e, st) else (.ok (), registerWarning x.warnMode u st)
  | .serError msg => (.err (.serError msg), st)
  | .recursion => (.err (.serError ("Error calling function `".toList ++ name ++ "`: RecursionError".toList)), st)
  | e => (.err (.serError ("Error calling function `".toList ++ name ++ "`: ".toList ++ E.display e)), st)

/-- A serialiser that may be missing: `expect` panics, `function.rs:176-181`. -/
def expectPy (s : Option (Ser V J G ε)) (x : Extra V) (v : V) : M G (Exc ε) V := fun st =>
  match s with
  | some s => s.py x v Option.none Option.none st
  | Option.none => (.panic, st)

/-- The same for keys. -/
def expectKey (s : Option (Ser V J G ε)) (x : Extra V) (v : V) : M G (Exc ε) Text := fun st =>
  match s with
  | some s => s.key x v st
  | Option.none => (.panic, st)

/-- The same for JSON. -/
def expectJson (s : Option (Ser V J G ε)) (x : Extra V) (v : V) : M G Text J := fun st =>
  match s with
  | some s => s.json x v Option.none Option.none st
  | Option.none => (.panic, st)

/-- The macro `function_type_serializer`, `function.rs:211-287`; `retry` is 183-188 and 424-426. -/
def functionSer (E : Env V J G ε) (w : WhenUsed) (kind : Text) (f : Fn V ε)
    (exec : Extra V → Option FVal → Option FVal → Prog V ε → M G (Exc ε) V)
    (ret : Ser V J G ε) (fallback : Option (Ser V J G ε)) : Ser V J G ε where
  py x v incl excl st :=
    match call E w kind f exec x v incl excl st with
    | (.ok (true, o), st1) => ret.py x o Option.none Option.none st1
    | (.ok (false, o), st1) => expectPy fallback x o st1
    | (.panic, st1) => (.panic, st1)
    | (.err e, st1) =>
      match onError E f.name x e st1 with
      | (.err e, st2) => (.err e, st2)
      | (.panic, st2) => (.panic, st2)
      | (.ok (), st2) => E.infer.py x v incl excl st2
  key x v st :=
    match call E w kind f exec x v Option.none Option.none st with
    | (.ok (true, o), st1) => ret.key x o st1
    | (.ok (false, o), st1) => expectKey fallback x o st1
    | (.panic, st1) => (.panic, st1)
    | (.err e, st1) =>
      match onError E f.name x e st1 with
      | (.err e, st2) => (.err e, st2)
      | (.panic, st2) => (.panic, st2)
      | (.ok (), st2) => E.infer.key x v st2
  json x v incl excl st :=
    match call E w kind f exec x v incl excl st with
    | (.ok (true, o), st1) => ret.json x o Option.none Option.none st1
    | (.ok (false, o), st1) => expectJson fallback x o st1
    | (.panic, st1) => (.panic, st1)
    | (.err e, st1) =>
      match onError E f.name x e st1 with
      | (.err e, st2) => (.err (E.display e), st2)
      | (.panic, st2) => (.panic, st2)
      | (.ok (), st2) => E.infer.json x v incl excl st2
  retry :=
    (match fallback with
      | some s => s.retry
      | Option.none => false) || ret.retry

/-- `FunctionPlainSerializer::build`, `function.rs:102-140`: the fallback is built of the schema without its
serialisation, unless the function is always used. `outer` is that serialiser. -/
def plainSer (E : Env V J G ε) (w : WhenUsed) (f : Fn V ε) (ret outer : Ser V J G ε) : Ser V J G ε :=
  functionSer E w "plain".toList f (fun _ _ _ p => runPlain p) ret (if w = .always then Option.none else some outer)

/-- `FunctionWrapSerializer::build`, `function.rs:346-383`. `inner` is the serialiser of `schema.serialization.schema`,
or of the schema without its serialisation. -/
def wrapSer (E : Env V J G ε) (w : WhenUsed) (f : Fn V ε) (ret inner : Ser V J G ε) : Ser V J G ε :=
  functionSer E w "wrap".toList f (fun x incl excl p => runWrap E inner x incl excl p) ret (some inner)

/-- A Python result as a step. -/
def lift {A B : Type} (r : Except A B) : M G A B := fun st =>
  match r with
  | .ok b => (.ok b, st)
  | .error e => (.err e, st)

/-- `FormatSerializer::call`, `format.rs:90-104`. -/
def formatCall (E : Env V J G ε) (s : Text) (v : V) : Except Text V :=
  match E.format v s with
  | .ok o => .ok o
  | .error e => .error ("Error calling `format(value, '".toList ++ s ++ "')`: ".toList ++ E.display e)

/-- `FormatSerializer`, `format.rs:56-161`. -/
def formatSer (E : Env V J G ε) (w : WhenUsed) (s : Text) : Ser V J G ε where
  py x v _ _ st :=
    if w.shouldUse E v x then
      match formatCall E s v with
      | .ok o => (.ok o, st)
      | .error e => (.err (.serError e), st)
    else (.ok v, st)
  key _ v st :=
    if w.shouldUseJson E v then
      match formatCall E s v with
      | .ok o => lift (E.strKey o) st
      | .error e => (.err (.serError e), st)
    else (.ok "None".toList, st)
  json _ v _ _ st :=
    if w.shouldUseJson E v then
      match formatCall E s v with
      | .ok o => lift (E.strJson o) st
      | .error e => (.err e, st)
    else (.ok E.null, st)
  retry := false

/-- `ToStringSerializer`, `format.rs:163-227`. -/
def toStringSer (E : Env V J G ε) (w : WhenUsed) : Ser V J G ε where
  py x v _ _ st := if w.shouldUse E v x then lift (E.str v) st else (.ok v, st)
  key _ v st :=
    if w.shouldUseJson E v then
      match E.str v with
      | .ok o => (.ok (E.lossyKey o), st)
      | .error e => (.err e, st)
    else (.ok "None".toList, st)
  json _ v _ _ st :=
    if w.shouldUseJson E v then
      match E.str v with
      | .ok o => lift (E.strJson o) st
      | .error e => (.err (E.display e), st)
    else (.ok E.null, st)
  retry := false

/-- Schemas, as far as they decide which of these serialisers is built: a validator function around a schema
(`function-before`, `function-after`, `function-wrap`, `function.rs:26-60` and 310-327) or alone (`function-plain`,
62-73), any other schema (`base`), and the schemas with a `serialization` of one of the four types. A
`return_schema` that is not given is `any`; so is, for `wrap`, a `serialization.schema` that is not given the schema
without its serialisation. -/
inductive Schema (V ε : Type) where
  | any
  | base (n : Nat)
  | validator (s : Schema V ε)
  | validatorPlain
  | plain (w : WhenUsed) (f : Fn V ε) (ret outer : Schema V ε)
  | wrap (w : WhenUsed) (f : Fn V ε) (ret inner : Schema V ε)
  | format (w : WhenUsed) (s : Text)
  | toStr (w : WhenUsed)

/-- `CombinedSerializer::_build`, `src/serializers/shared.rs:152-208`, and `FormatSerializer::build`, `format.rs:66-86`:
an empty format string is `to-string`. -/
def build (E : Env V J G ε) (base : Nat → Ser V J G ε) : Schema V ε → Ser V J G ε
  | .any => E.infer
  | .base n => base n
  | .validator s => build E base s
  | .validatorPlain => E.infer
  | .plain w f ret outer => plainSer E w f (build E base ret) (build E base outer)
  | .wrap w f ret inner => wrapSer E w f (build E base ret) (build E base inner)
  | .format w s => if s.isEmpty then toStringSer E w else formatSer E w s
  | .toStr w => toStringSer E w

/-- `SchemaSerializer::to_python`, `src/serializers/mod.rs:112-155`: the serialiser, then `final_check`. -/
def toPython (E : Env V J G ε) (s : Ser V J G ε) (x : Extra V) (v : V) (incl excl : Option FVal) : M G (Exc ε) V :=
  checked E s x v incl excl

/-- `UNEXPECTED_TYPE_SER_MARKER`, `src/serializers/errors.rs:13`. -/
def unexpectedMarker : Text := "__PydanticSerializationUnexpectedValue__".toList

/-- `SERIALIZATION_ERR_MARKER`, `errors.rs:14`. -/
def serErrorMarker : Text := "__PydanticSerializationError__".toList

/-- `se_err_py_err`, `src/serializers/errors.rs:47-61`. Simplification: an unexpected value is its message. -/
def seErrPyErr (t : Text) : Exc ε :=
  if unexpectedMarker.isPrefixOf t then .unexpected (t.drop unexpectedMarker.length)
  else if serErrorMarker.isPrefixOf t then .serError (t.drop serErrorMarker.length)
  else .serError ("Error serializing to JSON: ".toList ++ t)

/-- `SchemaSerializer::to_json`, `src/serializers/mod.rs:161-215`, and `to_json_bytes`, `src/serializers/shared.rs:
353-380`, without the text itself. -/
def toJson (E : Env V J G ε) (s : Ser V J G ε) (x : Extra V) (v : V) (incl excl : Option FVal) : M G (Exc ε) J :=
  fun st =>
    match s.json x v incl excl st with
    | (.panic, st1) => (.panic, st1)
    | (.err t, st1) => (.err (seErrPyErr t), st1)
    | (.ok o, st1) =>
      match finalCheck E x.warnMode st1 with
      | (.panic, st2) => (.panic, st2)
      | (.err e, st2) => (.err e, st2)
      | (.ok (), st2) => (.ok o, st2)

end PC.SerFunction
