import Verif.Model.Core

/-
Model of `src/lookup_key.rs`: how a field's value is found in the input.
-/

namespace PC.Lookup
variable {α : Type}

/-- An item of an alias path as written in the schema, i.e. a Python `str` or `int`
(`src/lookup_key.rs:487-507`); also what a container is subscripted with. -/
inductive Item where
  | s (k : String)
  | i (n : Int)
  deriving DecidableEq, Repr

/-- A `validation_alias` of the schema, `src/lookup_key.rs:49-80`: a string, a list starting with
a string (one path), or a list of lists (alternatives). -/
inductive Alias where
  | name (a : String)
  | path (items : List Item)
  | paths (ps : List (List Item))
  deriving DecidableEq, Repr

/-- `PathItem`, `src/lookup_key.rs:428-442`; the Rust and Python strings of a `PathItemString`
are the same string. -/
inductive PathItem where
  | s (k : String)
  | pos (n : Nat)
  | neg (n : Nat)
  deriving DecidableEq, Repr

/-- `IntoPyObject for &PathItem`, `src/lookup_key.rs:460-475`. -/
def PathItem.toPy : PathItem → Item
  | .s k => .s k
  | .pos n => .i n
  | .neg n => .i (-(n : Int))

/-- `to_loc_item`, `src/lookup_key.rs:552-558`. -/
def PathItem.toLocItem : PathItem → LocItem
  | .s k => .s k
  | .pos n => .i n
  | .neg n => .i (-(n : Int))

/-- `PathItem::from_py`, `src/lookup_key.rs:488-507`; `none` is the `TypeError` for integers
that fit neither `usize` nor `i64` (64-bit). -/
def PathItem.ofPy : Item → Option PathItem
  | .s k => some (.s k)
  | .i n =>
    if 0 ≤ n ∧ n < 2 ^ 64 then some (.pos n.toNat)
    else if -(2 ^ 63) ≤ n ∧ n < 2 ^ 63 then some (.neg n.natAbs)
    else none

/-- `LookupPath`, `src/lookup_key.rs:355-361`. -/
structure LookupPath where
  first : String
  rest : List PathItem
  deriving DecidableEq, Repr

/-- `LookupPath::from_str`, `src/lookup_key.rs:374-386`. -/
def LookupPath.ofStr (key : String) : LookupPath := ⟨key, []⟩

/-- `LookupPath::from_list`, `src/lookup_key.rs:388-407`; `none` is the schema error. -/
def LookupPath.ofList : List Item → Option LookupPath
  | .s k :: rest => (rest.mapM PathItem.ofPy).map fun r => ⟨k, r⟩
  | _ => none

/-- `LookupKey`, `src/lookup_key.rs:18-27`. -/
inductive LookupKey where
  | simple (path : LookupPath)
  | choice (path1 path2 : LookupPath)
  | pathChoices (ps : List LookupPath)
  deriving DecidableEq, Repr

/-- `LookupKey::from_py`, `src/lookup_key.rs:49-80`; `none` is a schema error. -/
def LookupKey.ofPy (a : Alias) (alt : Option String) : Option LookupKey :=
  match a with
  | .name a =>
    match alt with
    | some n => some (.choice (.ofStr a) (.ofStr n))
    | none => some (.simple (.ofStr a))
  | .path items =>
    (LookupPath.ofList items).map fun p =>
      .pathChoices ([p] ++ (alt.map LookupPath.ofStr).toList)
  | .paths [] => none
  | .paths ps =>
    (ps.mapM LookupPath.ofList).map fun ps =>
      .pathChoices (ps ++ (alt.map LookupPath.ofStr).toList)

/-- `LookupKeyCollection`, `src/lookup_key.rs:598-604`. -/
structure KeyCollection where
  byName : LookupKey
  byAlias : Option LookupKey
  byAliasThenName : Option LookupKey
  deriving DecidableEq, Repr

/-- `LookupKeyCollection::new`, `src/lookup_key.rs:607-625`. -/
def KeyCollection.new (alias? : Option Alias) (fieldName : String) : Option KeyCollection :=
  match alias? with
  | some a =>
    (LookupKey.ofPy a none).bind fun ba => (LookupKey.ofPy a (some fieldName)).map fun bn =>
      ⟨.simple (.ofStr fieldName), some ba, some bn⟩
  | none => some ⟨.simple (.ofStr fieldName), none, none⟩

/-- `LookupKeyCollection::select`, `src/lookup_key.rs:627-639`. -/
def KeyCollection.select (c : KeyCollection) (byAlias byName : Bool) : Except PyErr LookupKey :=
  match byAlias, byName with
  | true, true => .ok (c.byAliasThenName.getD c.byName)
  | true, false => .ok (c.byAlias.getD c.byName)
  | false, true => .ok c.byName
  | false, false => .error ⟨"SchemaError"⟩

/-! ### Python objects -/

/-- The operations of Python objects lookups use: `isinstance(o, str)`, `isinstance(o, dict)`,
`o[item]` (`none`: any exception) and `getattr(o, name)` (`none`: `AttributeError`). -/
structure PyOps (α : Type) where
  isStr : α → Bool
  isDict : α → Bool
  getItem : α → Item → Option α
  getAttr : α → String → Except PyErr (Option α)

/-- `PathItem::py_get_item`, `src/lookup_key.rs:509-517`. -/
def PathItem.pyGetItem (ops : PyOps α) (item : PathItem) (obj : α) : Option α :=
  if ops.isStr obj then none else ops.getItem obj item.toPy

/-- `path.rest.iter().try_fold(first_value, |d, loc| loc.py_get_item(&d))`,
`src/lookup_key.rs:122,177`. -/
def foldItems (ops : PyOps α) : List PathItem → α → Option α
  | [], v => some v
  | item :: rest, v =>
    match item.pyGetItem ops v with
    | some v' => foldItems ops rest v'
    | none => none

/-- The loop over `path_choices` in `py_get_dict_item`, `src/lookup_key.rs:115-129`. -/
def dictChoices (ops : PyOps α) (get : String → Except PyErr (Option α)) :
    List LookupPath → ValResult α (Option (LookupPath × α))
  | [] => .ok none
  | p :: ps =>
    match get p.first with
    | .error e => .error (.internal e)
    | .ok none => dictChoices ops get ps
    | .ok (some v) =>
      match foldItems ops p.rest v with
      | some w => .ok (some (p, w))
      | none => dictChoices ops get ps

/-- `py_get_dict_item`, `src/lookup_key.rs:90-131`; `get` is `PyDict::get_item` of the dict
(an exception raised by comparing keys is an internal error). -/
def LookupKey.pyGetDictItem (ops : PyOps α) (get : String → Except PyErr (Option α)) :
    LookupKey → ValResult α (Option (LookupPath × α))
  | .simple p =>
    match get p.first with
    | .error e => .error (.internal e)
    | .ok (some v) => .ok (some (p, v))
    | .ok none => .ok none
  | .choice p1 p2 =>
    match get p1.first with
    | .error e => .error (.internal e)
    | .ok (some v) => .ok (some (p1, v))
    | .ok none =>
      match get p2.first with
      | .error e => .error (.internal e)
      | .ok (some v) => .ok (some (p2, v))
      | .ok none => .ok none
  | .pathChoices ps => dictChoices ops get ps

/-- The loop over `path_choices` in `py_get_mapping_item`, `src/lookup_key.rs:170-184`. -/
def mappingChoices (ops : PyOps α) (get : String → Option α) :
    List LookupPath → Option (LookupPath × α)
  | [] => none
  | p :: ps =>
    match get p.first with
    | none => mappingChoices ops get ps
    | some v =>
      match foldItems ops p.rest v with
      | some w => some (p, w)
      | none => mappingChoices ops get ps

/-- `py_get_mapping_item`, `src/lookup_key.rs:145-186`; `get` is `mapping[key]`, `none` for any
exception. -/
def LookupKey.pyGetMappingItem (ops : PyOps α) (get : String → Option α) :
    LookupKey → Option (LookupPath × α)
  | .simple p =>
    match get p.first with
    | some v => some (p, v)
    | none => none
  | .choice p1 p2 =>
    match get p1.first with
    | some v => some (p1, v)
    | none =>
      match get p2.first with
      | some v => some (p2, v)
      | none => none
  | .pathChoices ps => mappingChoices ops get ps

/-- `PathItemString::py_get_attrs` and the free functions it calls,
`src/lookup_key.rs:562-596`. -/
def strGetAttrs (ops : PyOps α) (k : String) (obj : α) : Except PyErr (Option α) :=
  if ops.isDict obj then .ok (if ops.isStr obj then none else ops.getItem obj (.s k))
  else ops.getAttr obj k

/-- `PathItem::py_get_attrs`, `src/lookup_key.rs:519-525`. -/
def PathItem.pyGetAttrs (ops : PyOps α) (item : PathItem) (obj : α) : Except PyErr (Option α) :=
  match item with
  | .s k => strGetAttrs ops k obj
  | item => .ok (item.pyGetItem ops obj)

/-- The loop over `path.rest` in `simple_py_get_attr`, `src/lookup_key.rs:220-228`; `ok none` is
`continue 'outer`. -/
def attrRest (ops : PyOps α) : List PathItem → α → Except PyErr (Option α)
  | [], v => .ok (some v)
  | item :: rest, v =>
    match item.pyGetAttrs ops v with
    | .ok (some v') => attrRest ops rest v'
    | .ok none => .ok none
    | .error e => .error e

/-- The loop over `path_choices` in `simple_py_get_attr`, `src/lookup_key.rs:213-234`. -/
def attrChoices (ops : PyOps α) (obj : α) :
    List LookupPath → Except PyErr (Option (LookupPath × α))
  | [] => .ok none
  | p :: ps =>
    match strGetAttrs ops p.first obj with
    | .error e => .error e
    | .ok none => attrChoices ops obj ps
    | .ok (some v) =>
      match attrRest ops p.rest v with
      | .ok (some w) => .ok (some (p, w))
      | .ok none => attrChoices ops obj ps
      | .error e => .error e

/-- `simple_py_get_attr`, `src/lookup_key.rs:188-236`. -/
def LookupKey.simplePyGetAttr (ops : PyOps α) (obj : α) :
    LookupKey → Except PyErr (Option (LookupPath × α))
  | .simple p =>
    match ops.getAttr obj p.first with
    | .error e => .error e
    | .ok (some v) => .ok (some (p, v))
    | .ok none => .ok none
  | .choice p1 p2 =>
    match ops.getAttr obj p1.first with
    | .error e => .error e
    | .ok (some v) => .ok (some (p1, v))
    | .ok none =>
      match ops.getAttr obj p2.first with
      | .error e => .error e
      | .ok (some v) => .ok (some (p2, v))
      | .ok none => .ok none
  | .pathChoices ps => attrChoices ops obj ps

/-- `py_get_attr`, `src/lookup_key.rs:238-259`; `kwargs` is `get_item` of the optional keyword
dict. -/
def LookupKey.pyGetAttr (ops : PyOps α) (obj : α) (kwargs : Option (String → Except PyErr (Option α)))
    (key : LookupKey) : ValResult α (Option (LookupPath × α)) :=
  let fromObj : ValResult α (Option (LookupPath × α)) :=
    match key.simplePyGetAttr ops obj with
    | .ok v => .ok v
    | .error e => .error (.new (.other s!"get_attribute_error: {e.name}") obj)
  match kwargs with
  | some get =>
    match key.pyGetDictItem ops get with
    | .ok (some item) => .ok (some item)
    | _ => fromObj
  | none => fromObj

/-! ### JSON values -/

/-- `jiter::JsonValue`.  Numbers are kept as their text (integers, big integers and floats are
not distinguished: no lookup looks inside a scalar). -/
inductive Json where
  | null
  | bool (b : Bool)
  | num (text : String)
  | str (s : String)
  | arr (items : List Json)
  | obj (entries : List (String × Json))

/-- `dict.iter().rev().find_map(|(k, v)| (k == key).then_some(v))`, used throughout
`src/lookup_key.rs:261-326,547`. -/
def findLast (key : String) (entries : List (String × Json)) : Option Json :=
  entries.reverse.findSome? fun kv => if kv.1 = key then some kv.2 else none

/-- `PathItem::json_obj_get`, `src/lookup_key.rs:545-550`. -/
def PathItem.jsonObjGet (item : PathItem) (entries : List (String × Json)) : Option Json :=
  match item with
  | .s key => findLast key entries
  | _ => none

/-- `PathItem::json_get`, `src/lookup_key.rs:527-543`. -/
def PathItem.jsonGet (item : PathItem) (j : Json) : Option Json :=
  match j with
  | .obj entries => item.jsonObjGet entries
  | .arr items =>
    match item with
    | .pos index => items[index]?
    | .neg index => if index ≤ items.length then items[items.length - index]? else none
    | .s _ => none
  | _ => none

/-- `path_iter.try_fold(v, |d, loc| loc.json_get(d))`, `src/lookup_key.rs:317`. -/
def foldJson : List PathItem → Json → Option Json
  | [], v => some v
  | item :: rest, v =>
    match item.jsonGet v with
    | some v' => foldJson rest v'
    | none => none

/-- The loop over `path_choices` in `json_get`, `src/lookup_key.rs:299-324`. -/
def jsonChoices (entries : List (String × Json)) : List LookupPath → Option (LookupPath × Json)
  | [] => none
  | p :: ps =>
    match findLast p.first entries with
    | none => jsonChoices entries ps
    | some v =>
      match foldJson p.rest v with
      | some w => some (p, w)
      | none => jsonChoices entries ps

/-- `json_get`, `src/lookup_key.rs:261-326` (it never returns an error). -/
def LookupKey.jsonGet (entries : List (String × Json)) : LookupKey → Option (LookupPath × Json)
  | .simple p =>
    match findLast p.first entries with
    | some v => some (p, v)
    | none => none
  | .choice p1 p2 =>
    match findLast p1.first entries with
    | some v => some (p1, v)
    | none =>
      match findLast p2.first entries with
      | some v => some (p2, v)
      | none => none
  | .pathChoices ps => jsonChoices entries ps

/-! ### Error locations -/

/-- `LookupKey::error`, `src/lookup_key.rs:328-352`.  The empty `pathChoices` (the panic of
`paths.first().unwrap()`) is `none`; `from_py` does not build it. -/
def LookupKey.error (key : LookupKey) (t : ErrType) (input : α) (locByAlias : Bool)
    (fieldName : String) : Option (LineError α) :=
  if locByAlias then
    let path : Option LookupPath := match key with
      | .simple p => some p
      | .choice p1 _ => some p1
      | .pathChoices ps => ps.head?
    path.map fun p =>
      ⟨t, .list (p.rest.reverse.map PathItem.toLocItem ++ [.s p.first]), input⟩
  else some (.newWithLoc t input (.s fieldName))

/-- `LookupPath::apply_error_loc`, `src/lookup_key.rs:409-419`. -/
def LookupPath.applyErrorLoc (p : LookupPath) (e : LineError α) (locByAlias : Bool)
    (fieldName : String) : LineError α :=
  if locByAlias then
    (p.rest.reverse.foldl (fun e item => e.withOuterLocation item.toLocItem) e).withOuterLocation
      (.s p.first)
  else e.withOuterLocation (.s fieldName)

end PC.Lookup
