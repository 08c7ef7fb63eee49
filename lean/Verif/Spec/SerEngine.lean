import Verif.Model.SerSchema

/-
What the two outputs of a serialisation mean, and what has to hold of the data for them to agree.
-/

namespace PC.Infer
open PC.Float (F64)
open PC.Filter (FVal)

variable {α : Type}

/-! ### Documents -/

mutual
/-- A document as a reader sees it (`json.loads`): of entries with the same key the last counts, at the place of the
first. -/
def Json.norm : Json → Json
  | .arr xs => .arr (normItems xs)
  | .obj es => .obj ((normEntries es).foldl (fun acc e => Keys.setItem e.1 e.2 acc) [])
  | d => d
/-- The same for the items of an array. -/
def normItems : List Json → List Json
  | [] => []
  | d :: ds => d.norm :: normItems ds
/-- The same for the values of an object. -/
def normEntries : List (Text × Json) → List (Text × Json)
  | [] => []
  | (t, d) :: es => (t, d.norm) :: normEntries es
end

/-- The document a Python scalar stands for. -/
def scalarDoc (W : World α) (a : α) : Option Json :=
  match W.shape a with
  | .none => some .null
  | .bool b => some (.bool b)
  | .int i => some (.int i)
  | .float f => some (.float f)
  | .str (.utf8 t) => some (.str t)
  | _ => Option.none

mutual
/-- The document a Python value stands for, if it is made of `None`, `bool`, `int`, `float`, `str`, `list` and `dict`
with `str` keys only. -/
def Py.doc (W : World α) : Py α → Option Json
  | .same a => scalarDoc W a
  | .none => some .null
  | .int i => some (.int i)
  | .float f => some (.float f)
  | .str (.utf8 t) => some (.str t)
  | .list xs =>
    match docItems W xs with
    | some ds => some (.arr ds)
    | Option.none => Option.none
  | .dict es =>
    match docEntries W es with
    | some ds => some (.obj ds)
    | Option.none => Option.none
  | _ => Option.none
/-- The documents of the items of a list. -/
def docItems (W : World α) : List (Py α) → Option (List Json)
  | [] => some []
  | y :: ys =>
    match y.doc W, docItems W ys with
    | some d, some ds => some (d :: ds)
    | _, _ => Option.none
/-- The entries of a dict. -/
def docEntries (W : World α) : List (Py α × Py α) → Option (List (Text × Json))
  | [] => some []
  | (k, v) :: es =>
    match k.doc W, v.doc W, docEntries W es with
    | some (.str t), some d, some ds => some ((t, d) :: ds)
    | _, _, _ => Option.none
end

/-- The two outcomes agree: both are errors, and the same one, or the Python value is the document as read back. The
state (recursion guard and warnings) is the same afterwards. -/
def Agree (W : World α) : Except SErr (Py α) × St → Except SErr Json × St → Prop
  | (.ok y, st), (.ok d, st') => y.doc W = some d.norm ∧ st = st'
  | (.error e, st), (.error e', st') => e = e' ∧ st = st'
  | _, _ => False

/-! ### Conditions -/

/-- No float is infinite or NaN. -/
def Finite (E : Env α) : Prop :=
  (∀ a f, E.world.shape a = .float f ∨ E.world.shape a = .floatSub f → f.isFinite = true)
    ∧ ∀ a f, E.extractFloat a = some f → f.isFinite = true

/-- Nothing is a set. -/
def NoSets (W : World α) : Prop := ∀ a xs, W.shape a ≠ .set xs ∧ W.shape a ≠ .frozenset xs

/-- A value is converted (`extract`) just when it is of the type or a subclass (`is_type`). -/
structure Matches {C : Type} (t : α → IsType) (conv : α → Option C) (own : α → C → Prop) : Prop where
  exact : ∀ a, t a = .exact → ∃ c, conv a = some c ∧ own a c
  subclass : ∀ a, t a = .subclass → ∃ c, conv a = some c
  no : ∀ a, t a = .no → conv a = Option.none

/-- Ordinary data: text has a UTF-8 form; the pattern of a regular expression is a string, and `str` of it the same;
there is some stack; what is taken for a scalar is one; the keys of the dicts of models and typed dicts are strings. -/
structure Ordinary (E : Env α) : Prop where
  str : ∀ a s, E.world.shape a = .str s → ∃ t, s = .utf8 t
  path : ∀ a s, E.world.shape a = .path → E.world.str a = .ok s → ∃ t, s = .utf8 t
  pattern : ∀ a p, E.world.shape a = .pattern (.ok p) →
    ∃ t, E.world.shape p = .str (.utf8 t) ∧ E.world.str p = .ok (.utf8 t)
  stack : 0 < E.world.stack
  bools : Matches (E.isType .bool) E.extractBool (fun a b => E.world.shape a = .bool b)
  boolsFinal : ∀ a, E.isType .bool a ≠ .subclass
  ints : Matches (E.isType .int) E.extractInt (fun a i => E.world.shape a = .int i)
  floats : Matches (E.isType .float) E.extractFloat (fun a f => E.world.shape a = .float f)
  strs : Matches (E.isType .str) E.asStr (fun a s => E.world.shape a = .str s)
  keys : ∀ mode a main extras, E.dicts mode a = some (main, extras) →
    (∀ kv ∈ main, ∃ t, E.world.shape kv.1 = .str (.utf8 t))
      ∧ ∀ es, extras = some es → ∀ kv ∈ es, ∃ t, E.world.shape kv.1 = .str (.utf8 t)

/-- The setting for infinities and NaN has no effect on the two ways being the same. -/
def ConfigOk (E : Env α) (c : Config) : Prop := c.infNan ≠ .strings ∨ Finite E

/-- The same for float serialisers, which in `to_python` leave infinities and NaN alone. -/
def Leaf.floatsOk (E : Env α) : Leaf → Prop
  | .float m => m = .constants ∨ Finite E
  | .enumOf _ sub => sub.floatsOk E
  | _ => True

mutual
/-- The same for the float serialisers of a schema; and a `json-or-python` schema, whose two schemas are used for one
way each, has twice the same. -/
def Schema.floatsOk (E : Env α) : Schema α → Prop
  | .any => True
  | .leaf l => l.floatsOk E
  | .nullable s => s.floatsOk E
  | .list _ _ s => s.floatsOk E
  | .set _ _ s => s.floatsOk E
  | .dict _ _ k v => k.floatsOk E ∧ v.floatsOk E
  | .model _ _ _ _ s => s.floatsOk E
  | .fields _ fs => fs.floatsOk E
  | .ref _ => True
  | .dataclass _ _ _ s => s.floatsOk E
  | .jsonOrPython json python => json = python ∧ json.floatsOk E
  | .tuple _ _ _ items => items.floatsOk E
  | .function _ ret other => ret.floatsOk E ∧ other.floatsOk E
/-- The same for fields. -/
def Fields.floatsOk (E : Env α) : Fields α → Prop
  | .nil => True
  | .cons _ s rest => s.floatsOk E ∧ rest.floatsOk E
  | .excluded _ rest => rest.floatsOk E
/-- The same for the items of a tuple. -/
def Items.floatsOk (E : Env α) : Items α → Prop
  | .nil => True
  | .cons s rest => s.floatsOk E ∧ rest.floatsOk E
end

mutual
/-- Typed dicts occur only inside models and dataclasses. -/
def Schema.modelsFirst : Schema α → Prop
  | .any => True
  | .leaf _ => True
  | .nullable s => s.modelsFirst
  | .list _ _ s => s.modelsFirst
  | .set _ _ s => s.modelsFirst
  | .dict _ _ _ v => v.modelsFirst
  | .model _ _ _ _ _ => True
  | .fields _ _ => False
  | .ref _ => True
  | .dataclass _ _ _ _ => True
  | .jsonOrPython json python => json.modelsFirst ∧ python.modelsFirst
  | .tuple _ _ _ items => items.modelsFirst
  | .function _ ret other => ret.modelsFirst ∧ other.modelsFirst
/-- The same for the items of a tuple. -/
def Items.modelsFirst : Items α → Prop
  | .nil => True
  | .cons s rest => s.modelsFirst ∧ rest.modelsFirst
end

/-- The schemas of the definitions and of the classes met by inference are as wanted. -/
structure SchemasOk (E : Env α) (x : Extra α) : Prop where
  defs : ∀ d, (E.defs d).floatsOk E
  own : ∀ a c s, E.serializerOf a = .ok (c, s) → s.floatsOk E ∧ ConfigOk E c
  duck : x.duck = .schemaBased ∨
    ((∀ d, (E.defs d).modelsFirst) ∧ ∀ a c s, E.serializerOf a = .ok (c, s) → s.modelsFirst)

/-- The arguments of a call for which the two ways agree: mode `json`, not inside the choice of a union, unknown objects
refused; no `include` and `exclude`, unless there are no sets; and typed dicts only inside models, unless
`serialize_as_any` is off. -/
structure CallOk (E : Env α) (s : Schema α) (x : Extra α) (incl excl : Option FVal) : Prop where
  mode : x.mode = .json
  check : x.check = .none
  unknown : x.serializeUnknown = false
  config : ConfigOk E x.config
  filters : (incl = Option.none ∧ excl = Option.none) ∨ NoSets E.world
  duck : x.duck = .schemaBased ∨ x.model.isSome ∨ s.modelsFirst

/-! ### Plain data -/

mutual
/-- `a` is the object of a document: `None`, a `bool`, an `int`, a finite `float`, a `str`, a `list` or `tuple` of such
objects, a `dict` of them with `str` keys. Objects may be shared. -/
def Json.isOf (W : World α) : Json → α → Prop
  | .null, a => W.shape a = .none
  | .bool b, a => W.shape a = .bool b
  | .int i, a => W.shape a = .int i
  | .float f, a => W.shape a = .float f ∧ f.isFinite = true
  | .str t, a => W.shape a = .str (.utf8 t)
  | .arr ds, a => ∃ xs, (W.shape a = .list xs ∨ W.shape a = .tuple xs) ∧ areItems W ds xs
  | .obj es, a => ∃ kvs, W.shape a = .dict kvs ∧ areEntries W es kvs
/-- The same for the items of a list. -/
def areItems (W : World α) : List Json → List α → Prop
  | [], [] => True
  | d :: ds, x :: xs => d.isOf W x ∧ areItems W ds xs
  | _, _ => False
/-- The same for the entries of a dict. -/
def areEntries (W : World α) : List (Text × Json) → List (α × α) → Prop
  | [], [] => True
  | (t, d) :: es, (k, v) :: kvs => W.shape k = .str (.utf8 t) ∧ d.isOf W v ∧ areEntries W es kvs
  | _, _ => False
end

mutual
/-- How deep a document is nested: 1 for a scalar or something empty. -/
def Json.height : Json → Nat
  | .arr ds => heightItems ds + 1
  | .obj es => heightEntries es + 1
  | _ => 1
/-- The deepest item. -/
def heightItems : List Json → Nat
  | [] => 0
  | d :: ds => max d.height (heightItems ds)
/-- The deepest value. -/
def heightEntries : List (Text × Json) → Nat
  | [] => 0
  | (_, d) :: es => max d.height (heightEntries es)
end

mutual
/-- `y` is a copy of the object `a` of a document: scalars and keys are the objects themselves, lists, tuples and dicts
are new. -/
def Json.copied (W : World α) : Json → α → Py α → Prop
  | .arr ds, a, y =>
    ∃ xs ys, copiedItems W ds xs ys ∧ ((W.shape a = .list xs ∧ y = .list ys) ∨ (W.shape a = .tuple xs ∧ y = .tuple ys))
  | .obj es, a, y => ∃ kvs ys, copiedEntries W es kvs ys ∧ W.shape a = .dict kvs ∧ y = .dict ys
  | _, a, y => y = .same a
/-- The same for items. -/
def copiedItems (W : World α) : List Json → List α → List (Py α) → Prop
  | [], [], [] => True
  | d :: ds, x :: xs, y :: ys => d.copied W x y ∧ copiedItems W ds xs ys
  | _, _, _ => False
/-- The same for entries. -/
def copiedEntries (W : World α) : List (Text × Json) → List (α × α) → List (Py α × Py α) → Prop
  | [], [], [] => True
  | (_, d) :: es, (k, v) :: kvs, (k', y) :: ys => k' = .same k ∧ d.copied W v y ∧ copiedEntries W es kvs ys
  | _, _, _ => False
end

/-! ### Cyclic data -/

/-- `b` is part of `a`: an item of a list, tuple or set, a value of a dict, of a field of a dataclass, of an enum, what
a generator yields, or what the `fallback` function gives. -/
def Part (W : World α) (x : Extra α) (a b : α) : Prop :=
  match W.shape a with
  | .list xs | .tuple xs | .set xs | .frozenset xs => b ∈ xs
  | .dict es => ∃ k, (k, b) ∈ es
  | .dataclass (.ok es) => ∃ k, Except.ok (k, b) ∈ es
  | .generator xs => Except.ok b ∈ xs
  | .enum v => v = .ok b
  | .unknown => ∃ f, x.fallback = some f ∧ f a = .ok b
  | _ => False

/-- `b` is reached from `a` in one or more steps. -/
inductive Reaches (W : World α) (x : Extra α) : α → α → Prop
  | part {a b} (h : Part W x a b) : Reaches W x a b
  | step {a b c} (h : Part W x a b) (hs : Reaches W x b c) : Reaches W x a c

end PC.Infer
