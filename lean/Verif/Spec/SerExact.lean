import Verif.Spec.SerEngine

/-
What a value of the type a schema describes should be written as, without reference to the serialisers.
-/

namespace PC.Infer
open PC.Float (F64)
open PC.Filter (Filt)

variable {α : Type}

/-- The arguments and settings that decide what is written. -/
structure Opts where
  byAlias : Option Bool
  excludeNone : Bool
  excludeUnset : Bool

/-- The arguments of the call are these; the mode is `json`; `serialize_as_any` and
`serialize_unknown` are off, and this is not the choice of a union. -/
structure Extra.Fits (x : Extra α) (o : Opts) : Prop where
  mode : x.mode = .json
  duck : x.duck = .schemaBased
  check : x.check = .none
  unknown : x.serializeUnknown = false
  byAlias : x.byAlias = o.byAlias
  excludeNone : x.excludeNone = o.excludeNone
  excludeUnset : x.excludeUnset = o.excludeUnset

/-- The name of a field in the output: the alias if there is one and `by_alias` holds; the argument of the call comes
before the setting of the class, the default is `False`. -/
def Opts.fieldKey (o : Opts) (f : FieldInfo) : Text :=
  match o.byAlias, f.byAlias, f.alias with
  | some true, _, some a => a
  | Option.none, some true, some a => a
  | _, _, _ => f.name

/-- The first field of a name: its description, and its schema unless the field is excluded. -/
def Fields.lookup (t : Text) : Fields α → Option (FieldInfo × Option (Schema α))
  | .nil => Option.none
  | .cons info s rest => if info.name = t then some (info, some s) else rest.lookup t
  | .excluded info rest => if info.name = t then some (info, Option.none) else rest.lookup t

/-- The schemas of the items of a tuple. -/
def Items.toList : Items α → List (Schema α)
  | .nil => []
  | .cons s rest => s :: rest.toList

/-- A function is used for a value when JSON is written. -/
def UsedFor (E : Env α) (w : SerFunction.WhenUsed) (a : α) : Prop :=
  w = .always ∨ w = .json ∨ E.world.shape a ≠ .none

/-- The text of a dict key that is a scalar: that of a `str`, of an `int`, of what is written as text; and of a
`timedelta`, and of the value of an enum member. -/
def LeafKeyText (E : Env α) : Leaf → α → Text → Prop
  | .str, k, t => E.asStr k = some (.utf8 t)
  | .int, k, t => E.isType .int k ≠ .no ∧ E.world.str k = .ok (.utf8 t)
  | .text tk, k, t => E.asText tk k = some (.ok t)
  | .timedelta .iso8601, k, t => ∃ seconds, E.asTimedelta k = some (.ok t, seconds)
  | .enumOf cls sub, k, t => E.isEnum cls k = true ∧ ∃ v, E.enumValue k = .ok v ∧ LeafKeyText E sub v t
  | _, _, _ => False

/-- The text of a dict key, for scalar keys and keys of type `Any`. -/
def KeyText (E : Env α) : Schema α → α → Text → Prop
  | .leaf l, k, t => LeafKeyText E l k t
  | .any, k, t => E.world.shape k = .str (.utf8 t)
  | _, _, _ => False

/-- What is written for NaN and the infinities, for each `ser_json_inf_nan`. -/
inductive WritesNan : InfNanMode → F64 → Json → Prop
  | null {f : F64} (h : f = .nan ∨ f = .posInf ∨ f = .negInf) : WritesNan .null f .null
  | constants {f : F64} (h : f = .nan ∨ f = .posInf ∨ f = .negInf) : WritesNan .constants f (.float f)
  | nan : WritesNan .strings .nan (.str "NaN".toList)
  | posInf : WritesNan .strings .posInf (.str "Infinity".toList)
  | negInf : WritesNan .strings .negInf (.str "-Infinity".toList)

mutual
/-- A value of the type of a schema, the document that should be written, and how many definitions and inferences are
nested in it. -/
inductive Writes (E : Env α) (o : Opts) : Schema α → α → Json → Nat → Prop
  | any {a : α} {d : Json} (h : d.isOf E.world a) : Writes E o .any a d d.height
  | none {a : α} (h : E.world.shape a = .none) : Writes E o (.leaf .none) a .null 0
  | bool {a : α} {b : Bool} (h : E.extractBool a = some b) : Writes E o (.leaf .bool) a (.bool b) 0
  | int {a : α} {i : Int} (h : E.extractInt a = some i) : Writes E o (.leaf .int) a (.int i) 0
  | float {a : α} {m : InfNanMode} {f : F64} (h : E.extractFloat a = some f) (hf : f.isFinite = true) :
    Writes E o (.leaf (.float m)) a (.float f) 0
  | nan {a : α} {m : InfNanMode} {f : F64} {d : Json} (h : E.extractFloat a = some f) (hf : WritesNan m f d) :
    Writes E o (.leaf (.float m)) a d 0
  | str {a : α} {t : Text} (h : E.asStr a = some (.utf8 t)) : Writes E o (.leaf .str) a (.str t) 0
  | bytes {a : α} {m : Bytes.Mode} {b : List UInt8} {t : Text} (h : E.asBytes a = some b)
    (ht : Bytes.serializeBytes E.world.fromUtf8 m b = some t) : Writes E o (.leaf (.bytes m)) a (.str t) 0
  | text {a : α} {k : TextKind} {t : Text} (h : E.asText k a = some (.ok t)) : Writes E o (.leaf (.text k)) a (.str t) 0
  | duration {a : α} {t : Text} {seconds : Except SErr F64} (h : E.asTimedelta a = some (.ok t, seconds)) :
    Writes E o (.leaf (.timedelta .iso8601)) a (.str t) 0
  | seconds {a : α} {iso : Except SErr Text} {f : F64} (h : E.asTimedelta a = some (iso, .ok f)) :
    Writes E o (.leaf (.timedelta .float)) a (.float f) 0
  | literal {a : α} {l : LiteralInfo} {d : Json} (h : d.isOf E.world a) : Writes E o (.leaf (.literal l)) a d d.height
  | enum {a v : α} {cls : Nat} {d : Json} (h : E.isEnum cls a = true) (hv : E.enumValue a = .ok v)
    (hd : d.isOf E.world v) : Writes E o (.leaf (.enum cls)) a d d.height
  | enumOf {a v : α} {cls : Nat} {sub : Leaf} {d : Json} {n : Nat} (h : E.isEnum cls a = true)
    (hv : E.enumValue a = .ok v) (hs : Writes E o (.leaf sub) v d n) : Writes E o (.leaf (.enumOf cls sub)) a d n
  | null {a : α} {s : Schema α} (h : E.world.shape a = .none) : Writes E o (.nullable s) a .null 0
  | nullable {a : α} {s : Schema α} {d : Json} {n : Nat} (h : E.world.shape a ≠ .none) (hs : Writes E o s a d n) :
    Writes E o (.nullable s) a d n
  | list {a : α} {name : Text} {s : Schema α} {xs : List α} {ds : List Json} {n : Nat} (h : E.asList a = some xs)
    (hs : WritesAll E o s xs ds n) : Writes E o (.list name (.schema Option.none Option.none) s) a (.arr ds) n
  | set {a : α} {name : Text} {frozen : Bool} {s : Schema α} {xs : List α} {ds : List Json} {n : Nat}
    (h : E.asSet frozen a = some xs) (hs : WritesAll E o s xs ds n) : Writes E o (.set name frozen s) a (.arr ds) n
  | dict {a : α} {name : Text} {k v : Schema α} {kvs : List (α × α)} {es : List (Text × Json)} {n : Nat}
    (h : E.asDict a = some kvs) (hs : WritesDict E o k v kvs es n) :
    Writes E o (.dict name (.schema Option.none Option.none) k v) a (.obj es) n
  | model {a b : α} {name : Text} {cls : Nat} {hasExtra : Bool} {s : Schema α} {d : Json} {n : Nat}
    (h : E.allow cls .none a = .ok true) (hi : E.inner a o.excludeUnset hasExtra = .ok b) (hs : Writes E o s b d n) :
    Writes E o (.model name cls hasExtra false s) a d n
  | root {a b : α} {name : Text} {cls : Nat} {hasExtra : Bool} {s : Schema α} {d : Json} {n : Nat}
    (hi : E.root a = .ok b) (hs : Writes E o s b d n) : Writes E o (.model name cls hasExtra true s) a d n
  | fields {a : α} {mode : FieldsMode} {fs : Fields α} {main : List (α × α)} {es : List (Text × Json)} {n : Nat}
    (h : E.dicts mode a = some (main, Option.none)) (hs : WritesFields E o fs main es n) :
    Writes E o (.fields mode fs) a (.obj es) n
  | fieldsExtra {a : α} {mode : FieldsMode} {fs : Fields α} {main extras : List (α × α)} {es es' : List (Text × Json)}
    {n n' : Nat} (h : E.dicts mode a = some (main, some extras)) (hs : WritesFields E o fs main es n)
    (he : WritesExtras E o extras es' n') : Writes E o (.fields mode fs) a (.obj (es ++ es')) (max n n')
  | ref {a : α} {d : Nat} {doc : Json} {n : Nat} (hd : d < inferDefRefId) (h : Writes E o (E.defs d) a doc n) :
    Writes E o (.ref d) a doc (n + 1)
  | dataclass {a b : α} {name : Text} {cls : Nat} {names : List Text} {s : Schema α} {d : Json} {n : Nat}
    (h : E.dcAllow cls .none a = .ok true) (hi : E.dcInner names a = .ok b) (hs : Writes E o s b d n) :
    Writes E o (.dataclass name cls names s) a d n
  | jsonOrPython {a : α} {json python : Schema α} {d : Json} {n : Nat} (hs : Writes E o json a d n) :
    Writes E o (.jsonOrPython json python) a d n
  | tuple {a : α} {name : Text} {items : Items α} {xs : List α} {ds : List Json} {n : Nat} (h : E.asTuple a = some xs)
    (hs : WritesEach E o (items.toList.take xs.length) xs ds n) :
    Writes E o (.tuple name (.schema Option.none Option.none) Option.none items) a (.arr ds) n
  | variadic {a : α} {name : Text} {items : Items α} {first last : List (Schema α)} {s : Schema α} {v k : Nat} {xs : List α}
    {ds : List Json} {n : Nat} (h : E.asTuple a = some xs) (hv : v = first.length) (hi : items.toList = first ++ s :: last)
    (hs : WritesEach E o (first ++ (List.replicate k s ++ last)) xs ds n) :
    Writes E o (.tuple name (.schema Option.none Option.none) (some v) items) a (.arr ds) n
  | function {a b : α} {f : Nat} {w : SerFunction.WhenUsed} {ret other : Schema α} {d : Json} {n : Nat}
    (hu : UsedFor E w a) (h : E.callFn f Option.none a Option.none = .ok b) (hs : Writes E o ret b d n) :
    Writes E o (.function ⟨f, w, false, false⟩ ret other) a d n
  | unused {a : α} {fi : FuncInfo} {ret other : Schema α} {d : Json} {n : Nat} (hu : ¬ UsedFor E fi.whenUsed a)
    (hs : Writes E o other a d n) : Writes E o (.function fi ret other) a d n
/-- The items of a tuple, each with its schema. -/
inductive WritesEach (E : Env α) (o : Opts) : List (Schema α) → List α → List Json → Nat → Prop
  | nil : WritesEach E o [] [] [] 0
  | cons {s : Schema α} {ss : List (Schema α)} {a : α} {xs : List α} {d : Json} {ds : List Json} {n n' : Nat}
    (h : Writes E o s a d n) (hs : WritesEach E o ss xs ds n') : WritesEach E o (s :: ss) (a :: xs) (d :: ds) (max n n')
/-- The items of a list or set. -/
inductive WritesAll (E : Env α) (o : Opts) : Schema α → List α → List Json → Nat → Prop
  | nil {s : Schema α} : WritesAll E o s [] [] 0
  | cons {s : Schema α} {a : α} {xs : List α} {d : Json} {ds : List Json} {n n' : Nat} (h : Writes E o s a d n)
    (hs : WritesAll E o s xs ds n') : WritesAll E o s (a :: xs) (d :: ds) (max n n')
/-- The entries of a dict. -/
inductive WritesDict (E : Env α) (o : Opts) : Schema α → Schema α → List (α × α) → List (Text × Json) → Nat → Prop
  | nil {k v : Schema α} : WritesDict E o k v [] [] 0
  | cons {k v : Schema α} {kk vv : α} {kvs : List (α × α)} {t : Text} {d : Json} {es : List (Text × Json)} {n n' : Nat}
    (hk : KeyText E k kk t) (h : Writes E o v vv d n) (hs : WritesDict E o k v kvs es n') :
    WritesDict E o k v ((kk, vv) :: kvs) ((t, d) :: es) (max n n')
/-- The fields of a model or typed dict, in the order of the instance. Left out are excluded fields, and with
`exclude_none` those that are `None`. -/
inductive WritesFields (E : Env α) (o : Opts) : Fields α → List (α × α) → List (Text × Json) → Nat → Prop
  | nil {fs : Fields α} : WritesFields E o fs [] [] 0
  | skipNone {fs : Fields α} {k v : α} {main : List (α × α)} {es : List (Text × Json)} {n : Nat}
    (hx : o.excludeNone = true) (hv : E.world.shape v = .none) (hs : WritesFields E o fs main es n) :
    WritesFields E o fs ((k, v) :: main) es n
  | skip {fs : Fields α} {k v : α} {t : Text} {info : FieldInfo} {main : List (α × α)} {es : List (Text × Json)} {n : Nat}
    (hv : o.excludeNone = false ∨ E.world.shape v ≠ .none) (hk : E.world.shape k = .str (.utf8 t))
    (hf : fs.lookup t = some (info, Option.none)) (hs : WritesFields E o fs main es n) :
    WritesFields E o fs ((k, v) :: main) es n
  | field {fs : Fields α} {k v : α} {t : Text} {info : FieldInfo} {s : Schema α} {d : Json} {main : List (α × α)}
    {es : List (Text × Json)} {n n' : Nat} (hv : o.excludeNone = false ∨ E.world.shape v ≠ .none)
    (hk : E.world.shape k = .str (.utf8 t)) (hf : fs.lookup t = some (info, some s)) (h : Writes E o s v d n)
    (hs : WritesFields E o fs main es n') :
    WritesFields E o fs ((k, v) :: main) ((o.fieldKey info, d) :: es) (max n n')
/-- The extra items of a model. -/
inductive WritesExtras (E : Env α) (o : Opts) : List (α × α) → List (Text × Json) → Nat → Prop
  | nil : WritesExtras E o [] [] 0
  | skipNone {k v : α} {extras : List (α × α)} {es : List (Text × Json)} {n : Nat}
    (hx : o.excludeNone = true) (hv : E.world.shape v = .none) (hs : WritesExtras E o extras es n) :
    WritesExtras E o ((k, v) :: extras) es n
  | extra {k v : α} {t : Text} {d : Json} {extras : List (α × α)} {es : List (Text × Json)} {n : Nat}
    (hv : o.excludeNone = false ∨ E.world.shape v ≠ .none) (hk : E.world.shape k = .str (.utf8 t))
    (h : d.isOf E.world v) (hs : WritesExtras E o extras es n) :
    WritesExtras E o ((k, v) :: extras) ((t, d) :: es) (max d.height n)
end

end PC.Infer
