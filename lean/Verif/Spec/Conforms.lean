import Verif.Spec.Engine
import Verif.Spec.Collections
import Verif.Spec.ModelClass

/-
What the output of a schema looks like (`Conforms`) and where the location of an error leads (`Leads`), both by the
structure of the schema alone: no validator is mentioned.
-/

namespace PC.Engine
open PC.Comb PC.Coll PC.Union PC.Fields PC.Lookup
variable {α : Type}

/-! ### Parts of schemas -/

/-- The schema is one of the list. -/
def Schemas.Has : Schemas α → Schema α → Prop
  | .nil, _ => False
  | .cons s rest, x => x = s ∨ rest.Has x

/-- The schema at a position. -/
def Schemas.at? : Schemas α → Nat → Option (Schema α)
  | .nil, _ => none
  | .cons s _, 0 => some s
  | .cons _ rest, i + 1 => rest.at? i

/-- The union has a member of that name and label. -/
def Members.Has : Members α → String → Option String → Schema α → Prop
  | .nil, _, _, _ => False
  | .cons name label s rest, n, l, x => (n = name ∧ l = label ∧ x = s) ∨ rest.Has n l x

/-- The typed dict has a field of that name, with those lookup keys, required or not, that default and that schema. -/
def FieldSchemas.Has : FieldSchemas α → String → KeyCollection → Bool → Option α → Schema α → Prop
  | .nil, _, _, _, _, _ => False
  | .cons name keys required dflt s rest, n, k, r, d, x =>
    (n = name ∧ k = keys ∧ r = required ∧ d = dflt ∧ x = s) ∨ rest.Has n k r d x

/-- The names of the fields. -/
def FieldSchemas.names : FieldSchemas α → List String
  | .nil => []
  | .cons name _ _ _ _ rest => name :: rest.names

mutual
/-- `P` holds of the schema and of all schemas in it (definitions are not followed). -/
def Schema.All (P : Schema α → Prop) : Schema α → Prop
  | .leaf l => P (.leaf l)
  | .nullable s => P (.nullable s) ∧ s.All P
  | .list strict mn mx ff item => P (.list strict mn mx ff item) ∧ item.All P
  | .set t strict mn mx ff item => P (.set t strict mn mx ff item) ∧ item.All P
  | .dict strict mn mx key value => P (.dict strict mn mx key value) ∧ key.All P ∧ value.All P
  | .tuple strict mn mx ff head => P (.tuple strict mn mx ff head) ∧ head.All P
  | .tupleVar strict mn mx ff head variadic tail =>
    P (.tupleVar strict mn mx ff head variadic tail) ∧ head.All P ∧ variadic.All P ∧ tail.All P
  | .typedDict cfg fields => P (.typedDict cfg fields) ∧ fields.All P
  | .typedDictExtras cfg fields extras => P (.typedDictExtras cfg fields extras) ∧ fields.All P ∧ extras.All P
  | .union ltr ce members => P (.union ltr ce members) ∧ members.All P
  | .tagged cfg choices => P (.tagged cfg choices) ∧ choices.All P
  | .model cfg fields => P (.model cfg fields) ∧ fields.All P
  | .rootModel cls rv root => P (.rootModel cls rv root) ∧ root.All P
  | .before f s => P (.before f s) ∧ s.All P
  | .after f s => P (.after f s) ∧ s.All P
  | .wrap prog s => P (.wrap prog s) ∧ s.All P
  | .customError t s => P (.customError t s) ∧ s.All P
  | .laxOrStrict strict lax strictS => P (.laxOrStrict strict lax strictS) ∧ lax.All P ∧ strictS.All P
  | .ref name => P (.ref name)
/-- Of all of them. -/
def Schemas.All (P : Schema α → Prop) : Schemas α → Prop
  | .nil => True
  | .cons s rest => s.All P ∧ rest.All P
/-- Of all of them. -/
def Members.All (P : Schema α → Prop) : Members α → Prop
  | .nil => True
  | .cons _ _ s rest => s.All P ∧ rest.All P
/-- Of all of them. -/
def FieldSchemas.All (P : Schema α → Prop) : FieldSchemas α → Prop
  | .nil => True
  | .cons _ _ _ _ s rest => s.All P ∧ rest.All P
end

/-- The paths a lookup tries. -/
def keyPaths : LookupKey → List LookupPath
  | .simple p => [p]
  | .choice p q => [p, q]
  | .pathChoices ps => ps

/-- What schemas are like by construction: unions have members (`src/validators/union.rs:77-95`), lookups have a path
(`src/lookup_key.rs:49-80`), the fields of a typed dict or model have different names (they are the keys of a
dict, `src/validators/typed_dict.rs:82`, `src/validators/model_fields.rs:70`). -/
def built : Schema α → Prop
  | .union _ _ members => members ≠ .nil
  | .typedDict _ fields | .typedDictExtras _ fields _ | .model _ fields => fields.names.Nodup ∧
    ∀ n k r d s, fields.Has n k r d s → ∀ ba bn key, k.select ba bn = .ok key → keyPaths key ≠ []
  | _ => True

/-- No Python function. -/
def functionFree : Schema α → Prop
  | .before _ _ => False
  | .after _ _ => False
  | .wrap _ _ => False
  | _ => True

/-- A typed dict that allows extra items looks its fields up by their names. -/
def extrasByName : Schema α → Prop
  | .typedDict cfg fields | .typedDictExtras cfg fields _ => cfg.extra = .allow →
    ∀ n k r d s, fields.Has n k r d s → ∀ ba bn key, k.select ba bn = .ok key → key = .simple (.ofStr n)
  | _ => True

/-- The fields are looked up by their names, whatever the flags. -/
def FieldSchemas.ByName (fields : FieldSchemas α) : Prop :=
  ∀ n k r d s, fields.Has n k r d s → ∀ ba bn key, k.select ba bn = .ok key → key = .simple (.ofStr n)

/-- No tuple has items after a variadic one. -/
def variadicLast : Schema α → Prop
  | .tupleVar _ _ _ _ _ _ tail => tail = .nil
  | _ => True

/-! ### Inputs -/

/-- The error is an exception or about the input itself. -/
def AtInput (a : α) : ValError α → Prop
  | .lineErrors es => es ≠ [] ∧ ∀ e ∈ es, e.loc.toPy = [] ∧ e.input = a
  | .internal _ => True
  | .omitted => False
  | .useDefault => False

/-- What is assumed of inputs seen as dicts of fields (`src/input/input_python.rs:378-402,707-760`,
`src/input/input_json.rs:225-260`): lookups raise or answer; a key met in iteration is found by its name. -/
structure ViewLawful (ops : KeyOps α) (a : α) (view : DictView α) : Prop where
  get : ∀ key e, view.get key = .error e → ∃ x, e = .internal x
  entries : ∀ e, view.entries = .error e → AtInput a e
  entry : ∀ entries e, view.entries = .ok entries → .error e ∈ entries → AtInput a e
  byName : ∀ entries k w n, view.entries = .ok entries → .ok (k, w) ∈ entries → ops.str k = .ok n →
    ∃ x, view.get (.simple (.ofStr n)) = .ok (some (.ofStr n, x))

/-- What is assumed of inputs seen as the fields of a model (`src/input/input_python.rs:392-424`,
`src/input/input_abstract.rs:135-137`): an attribute that cannot be read is an error about the input
(`src/lookup_key.rs:249-258`; of a pair of object and keywords it is an error about the object, such pairs are left
out); in dicts, a key met in iteration is found by its name. -/
structure ModelViewLawful (ops : KeyOps α) (a : α) (view : DictView α) : Prop where
  get : ∀ key e, view.get key = .error e → AtInput a e
  entries : ∀ e, view.entries = .error e → AtInput a e
  entry : ∀ entries e, view.entries = .ok entries → .error e ∈ entries → AtInput a e
  byName : view.isPyGetAttr = false → ∀ entries k w n, view.entries = .ok entries → .ok (k, w) ∈ entries →
    ops.str k = .ok n → ∃ x, view.get (.simple (.ofStr n)) = .ok (some (.ofStr n, x))

/-- What is assumed of inputs: an input that is not a list, set, .. is refused with an error about that input. -/
structure World.Lawful (W : World α) : Prop where
  asList : ∀ strict a e, W.asList strict a = .error e → AtInput a e
  asSet : ∀ strict a e, W.asSet strict a = .error e → AtInput a e
  asTuple : ∀ strict a e, W.asTuple strict a = .error e → AtInput a e
  asDict : ∀ strict a e, W.asDict strict a = .error e → AtInput a e
  dictEntry : ∀ strict a entries e, W.asDict strict a = .ok entries → .error e ∈ entries → AtInput a e
  view : ∀ strict a e, W.view strict a = .error e → AtInput a e
  views : ∀ strict a v, W.view strict a = .ok v → ViewLawful W.keyOps a v
  str : ∀ k e, W.keyOps.str k = .error e → AtInput k e
  asFields : ∀ strict fa a e, W.asFields strict fa a = .error e → AtInput a e
  fieldViews : ∀ strict fa a v, W.asFields strict fa a = .ok v → ModelViewLawful W.keyOps a v

/-! ### Outputs -/

/-- Members of a set: hashable, no two the same. -/
def SetOk (h : Hashing α) (ys : List α) : Prop :=
  (∀ y ∈ ys, h.hashErr y = none) ∧ ys.Pairwise (fun x y => h.same x y = false)

/-- Entries of a dict: hashable keys, no two the same. -/
def DictOk (h : Hashing α) (kvs : List (α × α)) : Prop :=
  (∀ x ∈ kvs, h.hashErr x.1 = none) ∧ kvs.Pairwise (fun x y => h.same x.1 y.1 = false)

/-- Fields that are required or have a default are in the dict. -/
def FieldSchemas.Present (fields : FieldSchemas α) (d : Dict α) : Prop :=
  ∀ n k r dflt s, fields.Has n k r dflt s → r = true ∨ dflt ≠ none → n ∈ d.map Prod.fst

/-- Extra items: only where those are allowed, not under the name of a field, each name once. -/
def ExtraItems (cfg : TypedCfg) (fields : FieldSchemas α) (xs : Dict α) : Prop :=
  (xs.map Prod.fst).Nodup ∧ ∀ n v, (n, v) ∈ xs → cfg.extra = .allow ∧ ∀ k r d s, ¬ fields.Has n k r d s

/-- The extra items of an instance: there if and only if those are allowed, each name once, not the name of a field when
fields are looked up by name. -/
def InstanceExtra (cfg : ModelCfg) (fields : FieldSchemas α) : Option (Dict α) → Prop
  | none => cfg.extra ≠ .allow
  | some xs => cfg.extra = .allow ∧ (xs.map Prod.fst).Nodup ∧
      (fields.ByName → ∀ n v, (n, v) ∈ xs → n ∉ fields.names)

mutual
/-- The value is of the type the schema describes; `m` is the strictness of the run (`none`: as each schema says). -/
inductive Conforms (m : Option Bool) (W : World α) (defs : Nat → Schema α) : Schema α → α → Prop where
  /-- a value the scalar validator makes -/
  | leaf {l x y ex} : l.check (m.getD l.strict) x = .ok (y, ex) → Conforms m W defs (.leaf l) y
  | none {s} : Conforms m W defs (.nullable s) W.noneV
  | nullable {s y} : Conforms m W defs s y → Conforms m W defs (.nullable s) y
  | list {strict mn mx ff item ys} : (∀ y ∈ ys, Conforms m W defs item y) → FitsMin mn ys.length →
      FitsMax mx ys.length → Conforms m W defs (.list strict mn mx ff item) (W.mkList ys)
  | set {t strict mn mx ff item ys} : (∀ y ∈ ys, Conforms m W defs item y) → SetOk W.hashing ys →
      FitsMin mn ys.length → FitsMax mx ys.length → Conforms m W defs (.set t strict mn mx ff item) (W.mkSet ys)
  | dict {strict mn mx key value kvs} : (∀ x ∈ kvs, Conforms m W defs key x.1) →
      (∀ x ∈ kvs, Conforms m W defs value x.2) → DictOk W.hashing kvs → FitsMin mn kvs.length →
      FitsMax mx kvs.length → Conforms m W defs (.dict strict mn mx key value) (W.mkDict kvs)
  | tuple {strict mn mx ff head ys} : ConformsAll m W defs head ys → FitsMin mn ys.length → FitsMax mx ys.length →
      Conforms m W defs (.tuple strict mn mx ff head) (W.mkTuple ys)
  | tupleVar {strict mn mx ff head variadic tail hs vs ts} : ConformsAll m W defs head hs →
      (∀ v ∈ vs, Conforms m W defs variadic v) → ConformsAll m W defs tail ts →
      FitsMin mn (hs ++ (vs ++ ts)).length → FitsMax mx (hs ++ (vs ++ ts)).length →
      Conforms m W defs (.tupleVar strict mn mx ff head variadic tail) (W.mkTuple (hs ++ (vs ++ ts)))
  /-- the fields in the order of the schema, then extra items where those are allowed -/
  | typedDict {cfg fields ds xs} : (ds.map Prod.fst).Sublist fields.names →
      (∀ n v, (n, v) ∈ ds → Entry m W defs fields n v) → fields.Present ds → ExtraItems cfg fields xs →
      Conforms m W defs (.typedDict cfg fields) (W.mkTyped (ds ++ xs))
  | typedDictExtras {cfg fields extras ds xs} : (ds.map Prod.fst).Sublist fields.names →
      (∀ n v, (n, v) ∈ ds → Entry m W defs fields n v) → fields.Present ds → ExtraItems cfg fields xs →
      (∀ n v, (n, v) ∈ xs → Conforms m W defs extras v) →
      Conforms m W defs (.typedDictExtras cfg fields extras) (W.mkTyped (ds ++ xs))
  | union {ltr ce members n l s y} : members.Has n l s → Conforms m W defs s y →
      Conforms m W defs (.union ltr ce members) y
  | tagged {cfg choices s y} : choices.Has s → Conforms m W defs s y → Conforms m W defs (.tagged cfg choices) y
  /-- an instance with all fields in the order of the schema -/
  | model {cfg fields ds extra fs} : ds.map Prod.fst = fields.names → (∀ n v, (n, v) ∈ ds → Entry m W defs fields n v) →
      InstanceExtra cfg fields extra → Conforms m W defs (.model cfg fields) (W.mkModel cfg.cls ⟨ds, extra, fs⟩)
  /-- an instance that is not revalidated -/
  | instance {cfg fields a} : Cls.Kept cfg.revalidate (W.source cfg.cls a) → Conforms m W defs (.model cfg fields) a
  /-- an instance with the root; it is in the set of fields unless the input `x` was undefined -/
  | rootModel {cls rv root x y} : Conforms m W defs root y → Conforms m W defs (.rootModel cls rv root)
      (W.mkModel cls ⟨[("root", y)], .none, if W.isUndefined x then [] else ["root"]⟩)
  | rootInstance {cls rv root a} : Cls.Kept rv (W.source cls a) → Conforms m W defs (.rootModel cls rv root) a
  | customError {t s y} : Conforms m W defs s y → Conforms m W defs (.customError t s) y
  | lax {strict lax strictS y} : m.getD strict = false → Conforms m W defs lax y →
      Conforms m W defs (.laxOrStrict strict lax strictS) y
  | strict {strict lax strictS y} : Conforms m W defs strictS y → Conforms m W defs (.laxOrStrict strict lax strictS) y
  | ref {name y} : Conforms m W defs (defs name) y → Conforms m W defs (.ref name) y
/-- One value for each schema. -/
inductive ConformsAll (m : Option Bool) (W : World α) (defs : Nat → Schema α) : Schemas α → List α → Prop where
  | nil : ConformsAll m W defs .nil []
  | cons {s rest y ys} : Conforms m W defs s y → ConformsAll m W defs rest ys → ConformsAll m W defs (.cons s rest) (y :: ys)
/-- An entry of a typed dict: a field's value or default. -/
inductive Entry (m : Option Bool) (W : World α) (defs : Nat → Schema α) : FieldSchemas α → String → α → Prop where
  | field {fields n k r d s v} : fields.Has n k r d s → Conforms m W defs s v → Entry m W defs fields n v
  | default {fields n k r s v} : fields.Has n k r (some v) s → Entry m W defs fields n v
end

/-! ### Error locations -/

/-- Where errors of a field are reported: at the path by which it was found, or at its name. -/
def fieldLoc (locByAlias : Bool) (name : String) (p : LookupPath) : List LocItem :=
  if locByAlias then .s p.first :: p.rest.map PathItem.toLocItem else [.s name]

/-- `Leads W defs s a p z`: following the location `p` from the input `a` of schema `s` leads to `z`.  Steps are items
by position, dict values by key, dict keys by key and `[key]`, fields by name or alias path; union members add
their label.  A location may end at a place where something is missing; it leads to the container then. -/
inductive Leads (W : World α) (defs : Nat → Schema α) : Schema α → α → List LocItem → α → Prop where
  | here {s a} : Leads W defs s a [] a
  | nullable {s a p z} : Leads W defs s a p z → Leads W defs (.nullable s) a p z
  | list {strict mn mx ff item b a seq ex i x p z} : W.asList b a = .ok (seq, ex) → seq.items[i]? = some (.ok x) →
      Leads W defs item x p z → Leads W defs (.list strict mn mx ff item) a (.i (i : Nat) :: p) z
  /-- the item could not be fetched from the iterator -/
  | listIter {strict mn mx ff item b a seq ex i e} : W.asList b a = .ok (seq, ex) →
      seq.items[i]? = some (.error e) → Leads W defs (.list strict mn mx ff item) a [.i (i : Nat)] a
  | set {t strict mn mx ff item b a seq ex i x p z} : W.asSet b a = .ok (seq, ex) → seq.items[i]? = some (.ok x) →
      Leads W defs item x p z → Leads W defs (.set t strict mn mx ff item) a (.i (i : Nat) :: p) z
  | setIter {t strict mn mx ff item b a seq ex i e} : W.asSet b a = .ok (seq, ex) →
      seq.items[i]? = some (.error e) → Leads W defs (.set t strict mn mx ff item) a [.i (i : Nat)] a
  | dictKey {strict mn mx key value b a entries k w p z} : W.asDict b a = .ok entries → .ok (k, w) ∈ entries →
      Leads W defs key k p z → Leads W defs (.dict strict mn mx key value) a (W.keyLoc k :: .s "[key]" :: p) z
  | dictValue {strict mn mx key value b a entries k w p z} : W.asDict b a = .ok entries → .ok (k, w) ∈ entries →
      Leads W defs value w p z → Leads W defs (.dict strict mn mx key value) a (W.keyLoc k :: p) z
  | tuple {strict mn mx ff head s b a seq ex i x p z} : W.asTuple b a = .ok (seq, ex) →
      seq.items[i]? = some (.ok x) → head.Has s → Leads W defs s x p z →
      Leads W defs (.tuple strict mn mx ff head) a (.i (i : Nat) :: p) z
  | tupleMissing {strict mn mx ff head b a seq ex i} : W.asTuple b a = .ok (seq, ex) → seq.items[i]? = none →
      Leads W defs (.tuple strict mn mx ff head) a [.i (i : Nat)] a
  /-- tuples count the item that could not be fetched, finding 6 -/
  | tupleIter {strict mn mx ff head b a seq ex i e} : W.asTuple b a = .ok (seq, ex) →
      seq.items[i]? = some (.error e) → Leads W defs (.tuple strict mn mx ff head) a [.i (i + 1 : Nat)] a
  | tupleHead {strict mn mx ff head variadic tail s b a seq ex i x p z} : W.asTuple b a = .ok (seq, ex) →
      seq.items[i]? = some (.ok x) → head.Has s → Leads W defs s x p z →
      Leads W defs (.tupleVar strict mn mx ff head variadic tail) a (.i (i : Nat) :: p) z
  | tupleVariadic {strict mn mx ff head variadic tail b a seq ex i x p z} : W.asTuple b a = .ok (seq, ex) →
      seq.items[i]? = some (.ok x) → Leads W defs variadic x p z →
      Leads W defs (.tupleVar strict mn mx ff head variadic tail) a (.i (i : Nat) :: p) z
  | tupleVarMissing {strict mn mx ff head variadic tail b a seq ex i} : W.asTuple b a = .ok (seq, ex) →
      seq.items[i]? = none → Leads W defs (.tupleVar strict mn mx ff head variadic tail) a [.i (i : Nat)] a
  | tupleVarIter {strict mn mx ff head variadic tail b a seq ex i e} : W.asTuple b a = .ok (seq, ex) →
      seq.items[i]? = some (.error e) →
      Leads W defs (.tupleVar strict mn mx ff head variadic tail) a [.i (i + 1 : Nat)] a
  | field {cfg fields b a view ba bn n k r d s key path x p z} : W.view b a = .ok view → fields.Has n k r d s →
      k.select ba bn = .ok key → view.get key = .ok (some (path, x)) → Leads W defs s x p z →
      Leads W defs (.typedDict cfg fields) a (fieldLoc cfg.locByAlias n path ++ p) z
  /-- a required field is missing; the location is the first path under which it could have been found -/
  | missing {cfg fields b a view ba bn n k s key path} : W.view b a = .ok view → fields.Has n k true none s →
      k.select ba bn = .ok key → view.get key = .ok none → (keyPaths key).head? = some path →
      Leads W defs (.typedDict cfg fields) a (fieldLoc cfg.locByAlias n path) a
  | invalidKey {cfg fields b a view entries k w} : W.view b a = .ok view → view.entries = .ok entries →
      .ok (k, w) ∈ entries → Leads W defs (.typedDict cfg fields) a [W.keyOps.loc k] k
  | forbidden {cfg fields b a view entries k w} : W.view b a = .ok view → view.entries = .ok entries →
      .ok (k, w) ∈ entries → cfg.extra = .forbid → Leads W defs (.typedDict cfg fields) a [W.keyOps.loc k] w
  /-- the same for a typed dict that validates its extra items -/
  | extras {cfg fields extras a p z} : Leads W defs (.typedDict cfg fields) a p z →
      Leads W defs (.typedDictExtras cfg fields extras) a p z
  | extra {cfg fields extras b a view entries k w p z} : W.view b a = .ok view → view.entries = .ok entries →
      .ok (k, w) ∈ entries → Leads W defs extras w p z →
      Leads W defs (.typedDictExtras cfg fields extras) a (W.keyOps.loc k :: p) z
  | union {ltr members n l s a p z} : members.Has n l s → Leads W defs s a p z →
      Leads W defs (.union ltr none members) a (.s (l.getD n) :: p) z
  | tagged {cfg choices tag item i s b fa a p z} : findTag W cfg.key b fa a = .ok (some tag) →
      cfg.index tag = some (item, i) → choices.at? i = some s → Leads W defs s a p z →
      Leads W defs (.tagged cfg choices) a (item :: p) z
  | modelField {cfg fields b fa a view ba bn n k r d s key path x p z} : W.asFields b fa a = .ok view →
      fields.Has n k r d s → k.select ba bn = .ok key → view.get key = .ok (some (path, x)) → Leads W defs s x p z →
      Leads W defs (.model cfg fields) a (fieldLoc cfg.locByAlias n path ++ p) z
  | modelMissing {cfg fields b fa a view ba bn n k r s key path} : W.asFields b fa a = .ok view →
      fields.Has n k r none s → k.select ba bn = .ok key → view.get key = .ok none →
      (keyPaths key).head? = some path → Leads W defs (.model cfg fields) a (fieldLoc cfg.locByAlias n path) a
  /-- an attribute that cannot be read -/
  | modelUnreadable {cfg fields b fa a view ba bn n k r d s key e} : W.asFields b fa a = .ok view →
      fields.Has n k r d s → k.select ba bn = .ok key → view.get key = .error e →
      Leads W defs (.model cfg fields) a [.s n] a
  | modelInvalidKey {cfg fields b fa a view entries k w} : W.asFields b fa a = .ok view → view.entries = .ok entries →
      .ok (k, w) ∈ entries → Leads W defs (.model cfg fields) a [W.keyOps.loc k] k
  | modelForbidden {cfg fields b fa a view entries k w} : W.asFields b fa a = .ok view → view.entries = .ok entries →
      .ok (k, w) ∈ entries → cfg.extra = .forbid → Leads W defs (.model cfg fields) a [W.keyOps.loc k] w
  /-- an instance that is revalidated stands for the dict of its attributes -/
  | modelInstance {cfg fields a i p z} : (W.source cfg.cls a).inst? = some i →
      Leads W defs (.model cfg fields) (W.mkTyped (Cls.attributes i)) p z → Leads W defs (.model cfg fields) a p z
  | rootModel {cls rv root a p z} : Leads W defs root a p z → Leads W defs (.rootModel cls rv root) a p z
  | rootInstance {cls rv root a i x p z} : (W.source cls a).inst? = some i → i.dict.get "root" = some x →
      Leads W defs root x p z → Leads W defs (.rootModel cls rv root) a p z
  | lax {strict lax strictS a p z} : Leads W defs lax a p z → Leads W defs (.laxOrStrict strict lax strictS) a p z
  | strict {strict lax strictS a p z} : Leads W defs strictS a p z →
      Leads W defs (.laxOrStrict strict lax strictS) a p z
  | ref {name a p z} : Leads W defs (defs name) a p z → Leads W defs (.ref name) a p z

end PC.Engine
