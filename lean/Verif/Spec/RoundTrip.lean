import Verif.Spec.SerExact
import Verif.Spec.Conforms

/-
Schemas from which both a validator and a serialiser are built, the values they describe, and the documents of these
values; what is assumed of JSON data as input, and of the objects validators make as seen by serialisers.
-/

namespace PC.Trip
open PC.Infer (Json Text Opts)
open PC.Fields (Dict ExtraBehavior Instance)
open PC.Lookup (LookupKey KeyCollection LookupPath)
open PC.Coll (FitsMin FitsMax)

variable {α : Type}

/-! ### Schemas -/

mutual
/-- A core schema, as far as both engines know it: `any`, scalars (by validator and serialiser), nullable, list, tuple (with
or without an item that stands for any number), dict with scalar keys, typed dict, model, root model, reference to a
definition. -/
inductive Core (α : Type) where
  | any
  | leaf (l : Engine.Leaf α) (s : Infer.Leaf)
  | nullable (s : Core α)
  | list (name : Text) (strict : Bool) (minLength maxLength : Option Nat) (failFast : Bool) (item : Core α)
  | dict (name : Text) (strict : Bool) (minLength maxLength : Option Nat) (keyV : Engine.Leaf α) (keyS : Infer.Leaf)
      (value : Core α)
  | typedDict (cfg : Engine.TypedCfg) (fields : CoreFields α)
  | model (name : Text) (cfg : Engine.ModelCfg) (fields : CoreFields α)
  | rootModel (name : Text) (cls : Nat) (revalidate : Dc.Revalidate) (root : Core α)
  | ref (d : Nat)
  | tuple (name : Text) (strict : Bool) (minLength maxLength : Option Nat) (failFast : Bool) (items : CoreItems α)
  | tupleVar (name : Text) (strict : Bool) (minLength maxLength : Option Nat) (failFast : Bool) (first : CoreItems α)
      (item : Core α) (last : CoreItems α)
/-- Items of tuples. -/
inductive CoreItems (α : Type) where
  | nil
  | cons (s : Core α) (rest : CoreItems α)
/-- Fields: the name, the keys for lookup (`validation_alias`), whether the field is required, its default, the
`serialization_alias`, and `serialize_by_alias` of the class. -/
inductive CoreFields (α : Type) where
  | nil
  | cons (name : String) (keys : KeyCollection) (required : Bool) (dflt : Option α) (alias : Option Text)
      (serByAlias : Option Bool) (s : Core α) (rest : CoreFields α)
end

/-- The validator of `any` schemas gives back the input: `src/validators/any.rs:30-39`. -/
def anyLeaf : Engine.Leaf α := ⟨false, fun _ x => .ok (x, .lax)⟩

mutual
/-- The schema of the validator. -/
def Core.val : Core α → Engine.Schema α
  | .any => .leaf anyLeaf
  | .leaf l _ => .leaf l
  | .nullable s => .nullable s.val
  | .list _ strict mn mx ff item => .list strict mn mx ff item.val
  | .dict _ strict mn mx kv _ value => .dict strict mn mx (.leaf kv) value.val
  | .typedDict cfg fields => .typedDict cfg fields.val
  | .model _ cfg fields => .model cfg fields.val
  | .rootModel _ cls rv root => .rootModel cls rv root.val
  | .ref d => .ref d
  | .tuple _ strict mn mx ff items => .tuple strict mn mx ff items.val
  | .tupleVar _ strict mn mx ff first item last => .tupleVar strict mn mx ff first.val item.val last.val
/-- The same for items. -/
def CoreItems.val : CoreItems α → Engine.Schemas α
  | .nil => .nil
  | .cons s rest => .cons s.val rest.val
/-- The same for fields. -/
def CoreFields.val : CoreFields α → Engine.FieldSchemas α
  | .nil => .nil
  | .cons name keys required dflt _ _ s rest => .cons name keys required dflt s.val rest.val
end

/-- A field as the serialiser knows it. -/
def info (name : String) (alias : Option Text) (required : Bool) (serByAlias : Option Bool) : Infer.FieldInfo :=
  ⟨name.toList, alias, required, serByAlias⟩

/-- How many items. -/
def CoreItems.length : CoreItems α → Nat
  | .nil => 0
  | .cons _ rest => rest.length + 1

mutual
/-- The schema of the serialiser; a model that allows extra items writes them too
(`src/serializers/type_serializers/model.rs:89-94`). -/
def Core.ser : Core α → Infer.Schema α
  | .any => .any
  | .leaf _ s => .leaf s
  | .nullable s => .nullable s.ser
  | .list name _ _ _ _ item => .list name (.schema none none) item.ser
  | .dict name _ _ _ _ ks value => .dict name (.schema none none) (.leaf ks) value.ser
  | .typedDict _ fields => .fields .simpleDict fields.ser
  | .model name cfg fields =>
    .model name cfg.cls (decide (cfg.extra = .allow)) false
      (.fields (if cfg.extra = .allow then .modelExtra else .simpleDict) fields.ser)
  | .rootModel name cls _ root => .model name cls false true root.ser
  | .ref d => .ref d
  | .tuple name _ _ _ _ items => .tuple name (.schema none none) none (items.ser .nil)
  | .tupleVar name _ _ _ _ first item last =>
    .tuple name (.schema none none) (some first.length) (first.ser (.cons item.ser (last.ser .nil)))
/-- The same for items, with those that follow. -/
def CoreItems.ser : CoreItems α → Infer.Items α → Infer.Items α
  | .nil, more => more
  | .cons s rest, more => .cons s.ser (rest.ser more)
/-- The same for fields. -/
def CoreFields.ser : CoreFields α → Infer.Fields α
  | .nil => .nil
  | .cons name _ required _ alias sba s rest => .cons (info name alias required sba) s.ser rest.ser
end

/-! ### Assumptions -/

/-- Both engines with the same objects and the same definitions; `json` is a document as the parser hands it to
validators, `key` a key of a JSON object, `str` the Python object of a string. -/
structure Setting (α : Type) where
  V : Engine.Env α
  S : Infer.Env α
  defs : Nat → Core α
  json : Json → α
  key : Text → α
  str : String → α

/-- The definitions are the same. -/
structure Setting.Shared (T : Setting α) : Prop where
  val : T.V.defs = fun d => (T.defs d).val
  ser : T.S.defs = fun d => (T.defs d).ser

/-- The names a lookup key looks for, if it looks for one name, or for one and then another. -/
def names : LookupKey → Option (List String)
  | .simple p => if p = .ofStr p.first then some [p.first] else none
  | .choice p q => if p = .ofStr p.first ∧ q = .ofStr q.first then some [p.first, q.first] else none
  | .pathChoices _ => none

/-- The first of the names that is in an object. -/
def find (T : Setting α) (ns : List String) (es : List (Text × Json)) : Option (LookupPath × α) :=
  ns.findSome? fun n => (es.find? fun e => e.1 = n.toList).map fun e => (LookupPath.ofStr n, T.json e.2)

/-- A JSON object with the given entries, as a dict. -/
structure ReadsAs (T : Setting α) (view : Fields.DictView α) (es : List (Text × Json)) : Prop where
  get : ∀ key ns, names key = some ns → view.get key = .ok (find T ns es)
  attrs : view.isPyGetAttr = false
  entries : view.entries = .ok (es.map fun e => .ok (T.key e.1, T.json e.2))

/-- JSON data as input, `src/input/input_json.rs`: no address, `null` is `None`, arrays are lists and tuples, objects are dicts, in
strict mode too, nothing is an instance of a class. -/
structure Reads (T : Setting α) : Prop where
  identity : ∀ d, T.V.world.identity (T.json d) = none
  isNone : ∀ d, T.V.world.isNone (T.json d) = true ↔ d = .null
  list : ∀ strict ds, ∃ len py ex, T.V.world.asList strict (T.json (.arr ds)) = .ok (⟨ds.map fun d => .ok (T.json d), len, py⟩, ex)
  tuple : ∀ strict ds, ∃ len py ex, T.V.world.asTuple strict (T.json (.arr ds)) = .ok (⟨ds.map fun d => .ok (T.json d), len, py⟩, ex)
  dict : ∀ strict es, (es.map Prod.fst).Nodup →
    T.V.world.asDict strict (T.json (.obj es)) = .ok (es.map fun e => .ok (T.key e.1, T.json e.2))
  typed : ∀ strict es, (es.map Prod.fst).Nodup → ∃ view, T.V.world.view strict (T.json (.obj es)) = .ok view ∧ ReadsAs T view es
  fields : ∀ strict fa es, (es.map Prod.fst).Nodup →
    ∃ view, T.V.world.asFields strict fa (T.json (.obj es)) = .ok view ∧ ReadsAs T view es
  keyStr : ∀ t, T.V.world.keyOps.str (T.key t) = .ok (String.ofList t)
  source : ∀ cls d, T.V.world.source cls (T.json d) = .other

/-- A dict with string keys as the serialiser sees it. -/
def keyed (T : Setting α) (d : Dict α) : List (α × α) := d.map fun e => (T.str e.1, e.2)

/-- The objects that validators make and the plain data of a document, as the serialiser sees them: a list or tuple by its items, a
dict by its entries, an instance by its `__dict__` (without fields not set if so asked), its extra items and its root
(`src/serializers/type_serializers/model.rs:123-158`). -/
structure Sees (T : Setting α) : Prop where
  str : ∀ n, T.S.world.shape (T.str n) = .str (.utf8 n.toList)
  none : T.S.world.shape T.V.world.noneV = .none
  list : ∀ ys, T.S.asList (T.V.world.mkList ys) = some ys ∧ T.S.world.shape (T.V.world.mkList ys) ≠ .none
  tuple : ∀ ys, T.S.asTuple (T.V.world.mkTuple ys) = some ys ∧ T.S.world.shape (T.V.world.mkTuple ys) ≠ .none
  dict : ∀ kvs, Engine.DictOk T.V.world.hashing kvs →
    T.S.asDict (T.V.world.mkDict kvs) = some kvs ∧ T.S.world.shape (T.V.world.mkDict kvs) ≠ .none
  typed : ∀ d, (d.map Prod.fst).Nodup → T.S.dicts .simpleDict (T.V.world.mkTyped d) = some (keyed T d, Option.none)
    ∧ T.S.world.shape (T.V.world.mkTyped d) ≠ .none
  made : ∀ cls i, T.V.world.source cls (T.V.world.mkModel cls i) = .exact i
  allow : ∀ cls a i, T.V.world.source cls a = .exact i → T.S.allow cls .none a = .ok true ∧ T.S.world.shape a ≠ .none
  inner : ∀ cls a i unset, T.V.world.source cls a = .exact i → ∃ b, T.S.inner a unset i.extra.isSome = .ok b ∧
    T.S.dicts (if i.extra.isSome then .modelExtra else .simpleDict) b =
      some (keyed T (i.dict.filter fun e => !unset || i.fieldsSet.contains e.1), i.extra.map (keyed T))
  root : ∀ cls a i v, T.V.world.source cls a = .exact i → Dict.get "root" i.dict = some v → T.S.root a = .ok v
  plain : ∀ (d : Json) a, d.norm = d → d.isOf T.S.world a → d.isOf T.S.world (T.json d)

/-! ### Values and their documents -/

/-- An output of a scalar validator. -/
def Out (l : Engine.Leaf α) (a : α) : Prop := ∃ strict x ex, l.check strict x = .ok (a, ex)

/-- The field is left out: it has not been set and `exclude_unset` is on, or it is `None` and `exclude_none` is. -/
def LeftOut (T : Setting α) (o : Opts) (set : Option (List String)) (name : String) (v : α) : Prop :=
  (o.excludeUnset = true ∧ ∃ l, set = some l ∧ name ∉ l) ∨ (o.excludeNone = true ∧ T.S.world.shape v = .none)

/-- No field has the name, or is looked up by it. -/
def CoreFields.Free (name : String) : CoreFields α → Prop
  | .nil => True
  | .cons n keys _ _ _ _ _ rest =>
    name ≠ n ∧ (∀ byAlias byName key ns, keys.select byAlias byName = .ok key → names key = some ns → name ∉ ns) ∧ rest.Free name

mutual
/-- A value of the type that a schema describes, its document, and how deep it is nested (as in `Writes`): scalars are
outputs of their validators; lists, tuples and dicts have allowed lengths; an instance has all fields, in their order, a typed dict
all but some that are not required; what is left out of the document is the default of its field; a document is `null` for
`None` only where that makes a difference. -/
inductive Data (T : Setting α) (o : Opts) : Core α → α → Json → Nat → Prop
  | any {a : α} {d : Json} (h : d.isOf T.S.world a) (hd : d.norm = d) : Data T o .any a d d.height
  | leaf {l : Engine.Leaf α} {s : Infer.Leaf} {a : α} {d : Json} (hv : Out l a)
    (hw : Infer.Writes T.S o (.leaf s) a d 0) : Data T o (.leaf l s) a d 0
  | null {s : Core α} {a : α} (h : T.S.world.shape a = .none) : Data T o (.nullable s) a .null 0
  | nullable {s : Core α} {a : α} {d : Json} {n : Nat} (h : T.S.world.shape a ≠ .none) (hd : d ≠ .null)
    (hs : Data T o s a d n) : Data T o (.nullable s) a d n
  | list {name : Text} {strict ff : Bool} {mn mx : Option Nat} {s : Core α} {a : α} {xs : List α} {ds : List Json}
    {n : Nat} (h : T.S.asList a = some xs) (hs : DataAll T o s xs ds n) (hmn : FitsMin mn xs.length)
    (hmx : FitsMax mx xs.length) : Data T o (.list name strict mn mx ff s) a (.arr ds) n
  | dict {name : Text} {strict : Bool} {mn mx : Option Nat} {kv : Engine.Leaf α} {ks : Infer.Leaf} {s : Core α} {a : α}
    {kvs : List (α × α)} {es : List (Text × Json)} {n : Nat} (h : T.S.asDict a = some kvs)
    (hs : DataDict T o kv ks s kvs es n) (hk : (es.map Prod.fst).Nodup) (hmn : FitsMin mn kvs.length)
    (hmx : FitsMax mx kvs.length) : Data T o (.dict name strict mn mx kv ks s) a (.obj es) n
  | typedDict {cfg : Engine.TypedCfg} {fs : CoreFields α} {a : α} {ds : Dict α} {es : List (Text × Json)} {n : Nat}
    (h : T.S.dicts .simpleDict a = some (keyed T ds, Option.none)) (hx : cfg.extra ≠ .allow)
    (hs : DataFields T o false Option.none fs ds es n) : Data T o (.typedDict cfg fs) a (.obj es) n
  | model {name : Text} {cfg : Engine.ModelCfg} {fs : CoreFields α} {a : α} {i : Instance α} {es : List (Text × Json)}
    {n : Nat} (h : T.V.world.source cfg.cls a = .exact i) (hx : cfg.extra ≠ .allow) (hi : i.extra = Option.none)
    (hs : DataFields T o true (some i.fieldsSet) fs i.dict es n) : Data T o (.model name cfg fs) a (.obj es) n
  | modelExtra {name : Text} {cfg : Engine.ModelCfg} {fs : CoreFields α} {a : α} {i : Instance α} {xs : Dict α}
    {es es' : List (Text × Json)} {n n' : Nat} (h : T.V.world.source cfg.cls a = .exact i) (hx : cfg.extra = .allow)
    (hi : i.extra = some xs) (hs : DataFields T o true (some i.fieldsSet) fs i.dict es n)
    (he : DataExtras T o fs xs es' n') (hk : (es'.map Prod.fst).Nodup) :
    Data T o (.model name cfg fs) a (.obj (es ++ es')) (max n n')
  | rootModel {name : Text} {cls : Nat} {rv : Dc.Revalidate} {s : Core α} {a b : α} {i : Instance α} {d : Json} {n : Nat}
    (h : T.V.world.source cls a = .exact i) (hi : Dict.get "root" i.dict = some b) (hs : Data T o s b d n) :
    Data T o (.rootModel name cls rv s) a d n
  | ref {r : Nat} {a : α} {d : Json} {n : Nat} (hr : r < Infer.inferDefRefId) (h : Data T o (T.defs r) a d n) :
    Data T o (.ref r) a d (n + 1)
  | tuple {name : Text} {strict ff : Bool} {mn mx : Option Nat} {items : CoreItems α} {a : α} {xs : List α} {ds : List Json}
    {n : Nat} (h : T.S.asTuple a = some xs) (hs : DataEach T o items xs ds n) (hmn : FitsMin mn xs.length)
    (hmx : FitsMax mx xs.length) : Data T o (.tuple name strict mn mx ff items) a (.arr ds) n
  | tupleVar {name : Text} {strict ff : Bool} {mn mx : Option Nat} {first last : CoreItems α} {s : Core α} {a : α}
    {xs ys zs : List α} {ds es fs : List Json} {n n' n'' : Nat} (h : T.S.asTuple a = some (xs ++ (ys ++ zs)))
    (h1 : DataEach T o first xs ds n) (h2 : DataAll T o s ys es n') (h3 : DataEach T o last zs fs n'')
    (hmn : FitsMin mn (xs ++ (ys ++ zs)).length) (hmx : FitsMax mx (xs ++ (ys ++ zs)).length) :
    Data T o (.tupleVar name strict mn mx ff first s last) a (.arr (ds ++ (es ++ fs))) (max n (max n' n''))
/-- The items of a tuple, each with its own schema. -/
inductive DataEach (T : Setting α) (o : Opts) : CoreItems α → List α → List Json → Nat → Prop
  | nil : DataEach T o .nil [] [] 0
  | cons {s : Core α} {rest : CoreItems α} {a : α} {xs : List α} {d : Json} {ds : List Json} {n n' : Nat}
    (h : Data T o s a d n) (hs : DataEach T o rest xs ds n') :
    DataEach T o (.cons s rest) (a :: xs) (d :: ds) (max n n')
/-- The items of a list. -/
inductive DataAll (T : Setting α) (o : Opts) : Core α → List α → List Json → Nat → Prop
  | nil {s : Core α} : DataAll T o s [] [] 0
  | cons {s : Core α} {a : α} {xs : List α} {d : Json} {ds : List Json} {n n' : Nat} (h : Data T o s a d n)
    (hs : DataAll T o s xs ds n') : DataAll T o s (a :: xs) (d :: ds) (max n n')
/-- The entries of a dict. -/
inductive DataDict (T : Setting α) (o : Opts) :
    Engine.Leaf α → Infer.Leaf → Core α → List (α × α) → List (Text × Json) → Nat → Prop
  | nil {kv : Engine.Leaf α} {ks : Infer.Leaf} {s : Core α} : DataDict T o kv ks s [] [] 0
  | cons {kv : Engine.Leaf α} {ks : Infer.Leaf} {s : Core α} {k v : α} {kvs : List (α × α)} {t : Text} {d : Json}
    {es : List (Text × Json)} {n n' : Nat} (hk : Out kv k) (ht : Infer.KeyText T.S (.leaf ks) k t) (h : Data T o s v d n)
    (hs : DataDict T o kv ks s kvs es n') : DataDict T o kv ks s ((k, v) :: kvs) ((t, d) :: es) (max n n')
/-- The fields of an instance (`total`) or a typed dict, with the names in `__pydantic_fields_set__`. -/
inductive DataFields (T : Setting α) (o : Opts) :
    Bool → Option (List String) → CoreFields α → Dict α → List (Text × Json) → Nat → Prop
  | nil {total : Bool} {set : Option (List String)} : DataFields T o total set .nil [] [] 0
  | written {total : Bool} {set : Option (List String)} {name : String} {keys : KeyCollection} {required : Bool}
    {dflt : Option α} {alias : Option Text} {sba : Option Bool} {s : Core α} {rest : CoreFields α} {v : α} {ds : Dict α}
    {d : Json} {es : List (Text × Json)} {n n' : Nat} (hl : ¬ LeftOut T o set name v)
    (hd : o.excludeNone = true → d ≠ .null) (h : Data T o s v d n) (hs : DataFields T o total set rest ds es n') :
    DataFields T o total set (.cons name keys required dflt alias sba s rest) ((name, v) :: ds)
      ((o.fieldKey (info name alias required sba), d) :: es) (max n n')
  | omitted {total : Bool} {set : Option (List String)} {name : String} {keys : KeyCollection} {required : Bool}
    {dflt : Option α} {alias : Option Text} {sba : Option Bool} {s : Core α} {rest : CoreFields α} {v : α} {ds : Dict α}
    {es : List (Text × Json)} {n : Nat} (hl : LeftOut T o set name v) (hd : dflt = some v)
    (hs : DataFields T o total set rest ds es n) :
    DataFields T o total set (.cons name keys required dflt alias sba s rest) ((name, v) :: ds) es n
  | absent {set : Option (List String)} {name : String} {keys : KeyCollection} {alias : Option Text} {sba : Option Bool}
    {s : Core α} {rest : CoreFields α} {ds : Dict α} {es : List (Text × Json)} {n : Nat}
    (hs : DataFields T o false set rest ds es n) :
    DataFields T o false set (.cons name keys false Option.none alias sba s rest) ds es n
/-- The extra items of an instance: plain data, under names that no field has or is looked up by. -/
inductive DataExtras (T : Setting α) (o : Opts) : CoreFields α → Dict α → List (Text × Json) → Nat → Prop
  | nil {fs : CoreFields α} : DataExtras T o fs [] [] 0
  | cons {fs : CoreFields α} {name : String} {v : α} {xs : Dict α} {d : Json} {es : List (Text × Json)} {n : Nat}
    (hf : fs.Free name) (hv : o.excludeNone = true → d ≠ .null) (h : d.isOf T.S.world v) (hd : d.norm = d)
    (hs : DataExtras T o fs xs es n) : DataExtras T o fs ((name, v) :: xs) ((name.toList, d) :: es) (max d.height n)
end

/-! ### Conditions on schemas -/

/-- The arguments `strict`, `by_alias`, `by_name` and `from_attributes` of a validation. -/
structure Flags where
  strict : Option Bool
  byAlias : Option Bool
  byName : Option Bool
  fromAttributes : Option Bool

/-- The validator of a scalar accepts the documents of its outputs, and gives values with the same documents (`None` only
for `null`). -/
def LeafTrips (T : Setting α) (fl : Flags) (o : Opts) (l : Engine.Leaf α) (s : Infer.Leaf) : Prop :=
  ∀ a d, Out l a → Infer.Writes T.S o (.leaf s) a d 0 → ∃ v ex, l.check (fl.strict.getD l.strict) (T.json d) = .ok (v, ex) ∧
    Infer.Writes T.S o (.leaf s) v d 0 ∧ (T.S.world.shape v = .none → d = .null)

/-- The same for the keys of a dict; keys with different texts are different, all are hashable. -/
structure KeyTrips (T : Setting α) (fl : Flags) (kv : Engine.Leaf α) (ks : Infer.Leaf) : Prop where
  trip : ∀ a t, Out kv a → Infer.KeyText T.S (.leaf ks) a t →
    ∃ v ex, kv.check (fl.strict.getD kv.strict) (T.key t) = .ok (v, ex) ∧ Infer.KeyText T.S (.leaf ks) v t
  differ : ∀ a b t u, Infer.KeyText T.S (.leaf ks) a t → Infer.KeyText T.S (.leaf ks) b u → t ≠ u →
    T.V.world.hashing.same a b = false
  hash : ∀ a t, Infer.KeyText T.S (.leaf ks) a t → T.V.world.hashing.hashErr a = none

/-- The names of the fields. -/
def CoreFields.names : CoreFields α → List String
  | .nil => []
  | .cons name _ _ _ _ _ _ rest => name :: rest.names

/-- A key is looked up by these names only. -/
def LooksBy (byAlias byName : Bool) (keys : KeyCollection) (ns : List String) : Prop :=
  ∃ key, keys.select byAlias byName = .ok key ∧ Trip.names key = some ns

/-- No field is looked up by this name. -/
def CoreFields.Unlooked (byAlias byName : Bool) (n : String) : CoreFields α → Prop
  | .nil => True
  | .cons _ keys _ _ _ _ _ rest => (∀ ns, LooksBy byAlias byName keys ns → n ∉ ns) ∧ rest.Unlooked byAlias byName n

/-- Each field is written under a name that it is looked up by; no two fields have the same name, or are looked up by the
same name. -/
def CoreFields.KeysOk (o : Opts) (byAlias byName : Bool) : CoreFields α → Prop
  | .nil => True
  | .cons name keys required _ alias sba _ rest => name ∉ rest.names ∧
    (∃ ns, LooksBy byAlias byName keys ns ∧ String.ofList (o.fieldKey (info name alias required sba)) ∈ ns ∧
      ∀ n ∈ ns, rest.Unlooked byAlias byName n) ∧ rest.KeysOk o byAlias byName

mutual
/-- The conditions for all scalars, dict keys and fields of a schema. -/
def Core.Ok (T : Setting α) (fl : Flags) (o : Opts) : Core α → Prop
  | .any => True
  | .leaf l s => LeafTrips T fl o l s
  | .nullable s => s.Ok T fl o
  | .list _ _ _ _ _ item => item.Ok T fl o
  | .dict _ _ _ _ kv ks value => KeyTrips T fl kv ks ∧ value.Ok T fl o
  | .typedDict cfg fields =>
    fields.KeysOk o ((fl.byAlias.or cfg.byAlias).getD true) ((fl.byName.or cfg.byName).getD false) ∧ fields.Ok T fl o
  | .model _ cfg fields =>
    fields.KeysOk o ((fl.byAlias.or cfg.byAlias).getD true) ((fl.byName.or cfg.byName).getD false) ∧ fields.Ok T fl o
  | .rootModel _ _ _ root => root.Ok T fl o
  | .ref _ => True
  | .tuple _ _ _ _ _ items => items.Ok T fl o
  | .tupleVar _ _ _ _ _ first item last => first.Ok T fl o ∧ item.Ok T fl o ∧ last.Ok T fl o
/-- The same for items. -/
def CoreItems.Ok (T : Setting α) (fl : Flags) (o : Opts) : CoreItems α → Prop
  | .nil => True
  | .cons s rest => s.Ok T fl o ∧ rest.Ok T fl o
/-- The same for fields. -/
def CoreFields.Ok (T : Setting α) (fl : Flags) (o : Opts) : CoreFields α → Prop
  | .nil => True
  | .cons _ _ _ _ _ _ s rest => s.Ok T fl o ∧ rest.Ok T fl o
end

/-! ### Equal values -/

/-- Extra items under the same names, each time the plain data of the same document. -/
def EqualExtras (T : Setting α) (xs ys : Dict α) : Prop :=
  xs.map Prod.fst = ys.map Prod.fst ∧
    ∀ (i : Nat) x y, xs[i]? = some x → ys[i]? = some y → ∃ d : Json, d.isOf T.S.world x.2 ∧ d.isOf T.S.world y.2

mutual
/-- Two values of the type of a schema that are equal: scalars are `same`; lists, tuples, dicts and typed dicts have equal items;
instances of models have equal attributes and extra items (`__pydantic_fields_set__` is left aside, as in
`BaseModel.__eq__`). -/
inductive Equal (T : Setting α) (same : α → α → Prop) : Core α → α → α → Prop
  | any {a b : α} {d : Json} (ha : d.isOf T.S.world a) (hb : d.isOf T.S.world b) : Equal T same .any a b
  | leaf {l : Engine.Leaf α} {s : Infer.Leaf} {a b : α} (h : same a b) : Equal T same (.leaf l s) a b
  | null {s : Core α} {a b : α} (ha : T.S.world.shape a = .none) (hb : T.S.world.shape b = .none) :
    Equal T same (.nullable s) a b
  | nullable {s : Core α} {a b : α} (h : Equal T same s a b) : Equal T same (.nullable s) a b
  | list {name : Text} {strict ff : Bool} {mn mx : Option Nat} {s : Core α} {a b : α} {xs ys : List α}
    (ha : T.S.asList a = some xs) (hb : T.S.asList b = some ys) (h : EqualAll T same s xs ys) :
    Equal T same (.list name strict mn mx ff s) a b
  | dict {name : Text} {strict : Bool} {mn mx : Option Nat} {kv : Engine.Leaf α} {ks : Infer.Leaf} {s : Core α} {a b : α}
    {kvs kvs' : List (α × α)} (ha : T.S.asDict a = some kvs) (hb : T.S.asDict b = some kvs')
    (h : EqualDict T same s kvs kvs') : Equal T same (.dict name strict mn mx kv ks s) a b
  | typedDict {cfg : Engine.TypedCfg} {fs : CoreFields α} {a b : α} {ds ds' : Dict α}
    (ha : T.S.dicts .simpleDict a = some (keyed T ds, Option.none))
    (hb : T.S.dicts .simpleDict b = some (keyed T ds', Option.none)) (h : EqualFields T same fs ds ds') :
    Equal T same (.typedDict cfg fs) a b
  | model {name : Text} {cfg : Engine.ModelCfg} {fs : CoreFields α} {a b : α} {i j : Instance α}
    (ha : T.V.world.source cfg.cls a = .exact i) (hb : T.V.world.source cfg.cls b = .exact j)
    (h : EqualFields T same fs i.dict j.dict) (hi : i.extra = Option.none) (hj : j.extra = Option.none) :
    Equal T same (.model name cfg fs) a b
  | modelExtra {name : Text} {cfg : Engine.ModelCfg} {fs : CoreFields α} {a b : α} {i j : Instance α} {xs ys : Dict α}
    (ha : T.V.world.source cfg.cls a = .exact i) (hb : T.V.world.source cfg.cls b = .exact j)
    (h : EqualFields T same fs i.dict j.dict) (hi : i.extra = some xs) (hj : j.extra = some ys)
    (hx : EqualExtras T xs ys) : Equal T same (.model name cfg fs) a b
  | rootModel {name : Text} {cls : Nat} {rv : Dc.Revalidate} {s : Core α} {a b v w : α} {i j : Instance α}
    (ha : T.V.world.source cls a = .exact i) (hb : T.V.world.source cls b = .exact j)
    (hi : Dict.get "root" i.dict = some v) (hj : Dict.get "root" j.dict = some w) (h : Equal T same s v w) :
    Equal T same (.rootModel name cls rv s) a b
  | ref {r : Nat} {a b : α} (h : Equal T same (T.defs r) a b) : Equal T same (.ref r) a b
  | tuple {name : Text} {strict ff : Bool} {mn mx : Option Nat} {items : CoreItems α} {a b : α} {xs ys : List α}
    (ha : T.S.asTuple a = some xs) (hb : T.S.asTuple b = some ys) (h : EqualEach T same items xs ys) :
    Equal T same (.tuple name strict mn mx ff items) a b
  | tupleVar {name : Text} {strict ff : Bool} {mn mx : Option Nat} {first last : CoreItems α} {s : Core α} {a b : α}
    {xs ys zs xs' ys' zs' : List α} (ha : T.S.asTuple a = some (xs ++ (ys ++ zs)))
    (hb : T.S.asTuple b = some (xs' ++ (ys' ++ zs'))) (h1 : EqualEach T same first xs xs') (h2 : EqualAll T same s ys ys')
    (h3 : EqualEach T same last zs zs') : Equal T same (.tupleVar name strict mn mx ff first s last) a b
/-- The items of tuples, each with its own schema. -/
inductive EqualEach (T : Setting α) (same : α → α → Prop) : CoreItems α → List α → List α → Prop
  | nil : EqualEach T same .nil [] []
  | cons {s : Core α} {rest : CoreItems α} {a b : α} {xs ys : List α} (h : Equal T same s a b)
    (hs : EqualEach T same rest xs ys) : EqualEach T same (.cons s rest) (a :: xs) (b :: ys)
/-- The items of lists. -/
inductive EqualAll (T : Setting α) (same : α → α → Prop) : Core α → List α → List α → Prop
  | nil {s : Core α} : EqualAll T same s [] []
  | cons {s : Core α} {a b : α} {xs ys : List α} (h : Equal T same s a b) (hs : EqualAll T same s xs ys) :
    EqualAll T same s (a :: xs) (b :: ys)
/-- The entries of dicts. -/
inductive EqualDict (T : Setting α) (same : α → α → Prop) : Core α → List (α × α) → List (α × α) → Prop
  | nil {s : Core α} : EqualDict T same s [] []
  | cons {s : Core α} {j k v w : α} {xs ys : List (α × α)} (hk : same j k) (h : Equal T same s v w)
    (hs : EqualDict T same s xs ys) : EqualDict T same s ((j, v) :: xs) ((k, w) :: ys)
/-- The fields of instances or typed dicts: a field is in both with equal values, or in both with one and the same object
(a default), or in none. -/
inductive EqualFields (T : Setting α) (same : α → α → Prop) : CoreFields α → Dict α → Dict α → Prop
  | nil : EqualFields T same .nil [] []
  | both {name : String} {keys : KeyCollection} {required : Bool} {dflt : Option α} {alias : Option Text}
    {sba : Option Bool} {s : Core α} {rest : CoreFields α} {v w : α} {ds ds' : Dict α} (h : Equal T same s v w)
    (hs : EqualFields T same rest ds ds') :
    EqualFields T same (.cons name keys required dflt alias sba s rest) ((name, v) :: ds) ((name, w) :: ds')
  | default {name : String} {keys : KeyCollection} {required : Bool} {dflt : Option α} {alias : Option Text}
    {sba : Option Bool} {s : Core α} {rest : CoreFields α} {v : α} {ds ds' : Dict α} (h : dflt = some v)
    (hs : EqualFields T same rest ds ds') :
    EqualFields T same (.cons name keys required dflt alias sba s rest) ((name, v) :: ds) ((name, v) :: ds')
  | neither {name : String} {keys : KeyCollection} {required : Bool} {dflt : Option α} {alias : Option Text}
    {sba : Option Bool} {s : Core α} {rest : CoreFields α} {ds ds' : Dict α} (hs : EqualFields T same rest ds ds') :
    EqualFields T same (.cons name keys required dflt alias sba s rest) ds ds'
end

/-- Outputs of the validator of a scalar with the same document are the same. -/
def LeafExact (T : Setting α) (same : α → α → Prop) (o : Opts) (l : Engine.Leaf α) (s : Infer.Leaf) : Prop :=
  ∀ a b d, Out l a → Out l b → Infer.Writes T.S o (.leaf s) a d 0 → Infer.Writes T.S o (.leaf s) b d 0 → same a b

/-- Keys with the same text are the same. -/
def KeyExact (T : Setting α) (same : α → α → Prop) (kv : Engine.Leaf α) (ks : Infer.Leaf) : Prop :=
  ∀ a b t, Out kv a → Out kv b → Infer.KeyText T.S (.leaf ks) a t → Infer.KeyText T.S (.leaf ks) b t → same a b

mutual
/-- This holds for all scalars and keys of a schema. -/
def Core.Exact (T : Setting α) (same : α → α → Prop) (o : Opts) : Core α → Prop
  | .any => True
  | .leaf l s => LeafExact T same o l s
  | .nullable s => s.Exact T same o
  | .list _ _ _ _ _ item => item.Exact T same o
  | .dict _ _ _ _ kv ks value => KeyExact T same kv ks ∧ value.Exact T same o
  | .typedDict _ fields => fields.Exact T same o
  | .model _ _ fields => fields.Exact T same o
  | .rootModel _ _ _ root => root.Exact T same o
  | .ref _ => True
  | .tuple _ _ _ _ _ items => items.Exact T same o
  | .tupleVar _ _ _ _ _ first item last => first.Exact T same o ∧ item.Exact T same o ∧ last.Exact T same o
/-- The same for items. -/
def CoreItems.Exact (T : Setting α) (same : α → α → Prop) (o : Opts) : CoreItems α → Prop
  | .nil => True
  | .cons s rest => s.Exact T same o ∧ rest.Exact T same o
/-- The same for fields. -/
def CoreFields.Exact (T : Setting α) (same : α → α → Prop) (o : Opts) : CoreFields α → Prop
  | .nil => True
  | .cons _ _ _ _ _ _ s rest => s.Exact T same o ∧ rest.Exact T same o
end

end PC.Trip
