/-
Model of the `include` / `exclude` filters of the serialisers: `src/serializers/filter.rs`, and of the
list, tuple, dict and `Any` serialisers that apply them (`src/serializers/infer.rs`,
`src/serializers/type_serializers/list.rs`, `src/serializers/type_serializers/dict.rs`).
-/

namespace PC.Filter

/-- A key of a filter, or of a serialised dict: a Python `int` or `str`.

Models: the `py_key` of `src/serializers/filter.rs` 153-159 and the keys of `include` / `exclude`.
Simplification: other hashable keys are left out (they behave like strings: compared by equality, and
not changed by `map_negative_index` unless they define `__mod__`). -/
inductive Key where
  | i (n : Int)
  | s (s : String)
deriving DecidableEq, Repr

/-- The wildcard key (`src/serializers/filter.rs` 176, 208, 298, 336). -/
def Key.all : Key := .s "__all__"

/-- The Python objects that may be passed as `include` or `exclude`, or be nested in one: `None`,
`...` or `True` (`is_ellipsis_like`), a `dict`, a `set`, and any other object, with its
`__contains__` method if there is one.

Models: `include: Option<&Bound<PyAny>>` of `src/serializers/filter.rs` 153-159, the type tests at
162, 164, 175, 180 and `is_ellipsis_like` at 321-328.
Simplification: dict entries and set items are in iteration order; a `__contains__` answers `none`
when the call raises. A `frozenset` is an `other` (it is not a `PySet`). -/
inductive FVal where
  | none
  | ell
  | dict (es : List (Key × FVal))
  | set (ks : List Key)
  | other (contains : Option (Key → Option Bool))

/-- Python exceptions raised by the filter code (`PyTypeError`, `PyValueError`; `contains` is an
exception raised by a `__contains__` method asked for `__all__`): `src/serializers/filter.rs` 27, 185,
224, 298, 365, 395. -/
inductive Err where
  | type
  | value
  | contains
deriving DecidableEq, Repr

/-- `is_ellipsis_like`: `src/serializers/filter.rs` 321-328. -/
def FVal.isEll : FVal → Bool
  | .ell => true
  | _ => false

/-- `PyDict::get_item`: used at `src/serializers/filter.rs` 335-336, 375. -/
def kget {V : Type} : List (Key × V) → Key → Option V
  | [], _ => Option.none
  | (k', v) :: rest, k => if k' = k then some v else kget rest k

/-- `PyDict::set_item`: an existing key keeps its place, a new one goes to the end. Used at
`src/serializers/filter.rs` 45, 361, 382, 385, 391. -/
def kset {V : Type} : List (Key × V) → Key → V → List (Key × V)
  | [], k, v => [(k, v)]
  | (k', v') :: rest, k, v => if k' = k then (k', v) :: rest else (k', v') :: kset rest k v

/-- `map_negative_index`: `src/serializers/filter.rs` 18-35. With a length, `value.__mod__(len)`; when
that raises the value is unchanged (`len == 0`: `ZeroDivisionError`).
Simplification: for a string `__mod__` is formatting, which raises for a string without a conversion
specifier; strings with one (`"%d"`) are modelled as unchanged. -/
def mapNegativeIndex (k : Key) (len : Option Nat) : Except Err Key :=
  match len with
  | some n =>
    match k with
    | .i v => .ok (if n = 0 then .i v else .i (v.emod n))
    | .s _ => .ok k
  | Option.none =>
    match k with
    | .i v => if v < 0 then .error .value else .ok k
    | .s _ => .ok k

/-- The dict loop of `map_negative_indices`: `src/serializers/filter.rs` 43-46. -/
def mapDictKeys (len : Option Nat) : List (Key × FVal) → List (Key × FVal) → Except Err (List (Key × FVal))
  | out, [] => .ok out
  | out, (k, v) :: rest =>
    match mapNegativeIndex k len with
    | .error e => .error e
    | .ok k' => mapDictKeys len (kset out k' v) rest

/-- The set loop of `map_negative_indices`: `src/serializers/filter.rs` 49-52. -/
def mapSetKeys (len : Option Nat) : List Key → Except Err (List Key)
  | [] => .ok []
  | k :: rest =>
    match mapNegativeIndex k len with
    | .error e => .error e
    | .ok k' =>
      match mapSetKeys len rest with
      | .error e => .error e
      | .ok ks => .ok (k' :: ks)

/-- `map_negative_indices`: `src/serializers/filter.rs` 37-58. -/
def mapNegativeIndices (f : FVal) (len : Option Nat) : Except Err FVal :=
  match f with
  | .dict es => (mapDictKeys len [] es).map .dict
  | .set ks => (mapSetKeys len ks).map .set
  | f => .ok f

/-- `as_dict`: `src/serializers/filter.rs` 354-369. -/
def asDict : FVal → Except Err (List (Key × FVal))
  | .dict es => .ok es
  | .set ks => .ok (ks.foldl (fun d k => kset d k .ell) [])
  | _ => .error .type

/-- The set loop of `merge_dicts`: `src/serializers/filter.rs` 389-393. -/
def mergeSet : List (Key × FVal) → List Key → List (Key × FVal)
  | item, [] => item
  | item, k :: rest => mergeSet (if (kget item k).isSome then item else kset item k .ell) rest

mutual
/-- `merge_dicts`: `src/serializers/filter.rs` 371-400. -/
def mergeDicts (item : List (Key × FVal)) : FVal → Except Err (List (Key × FVal))
  | .dict es => mergeLoop item es
  | .set ks => .ok (mergeSet item ks)
  | _ => .error .type
/-- The dict loop of `merge_dicts`: `src/serializers/filter.rs` 374-387. -/
def mergeLoop (item : List (Key × FVal)) : List (Key × FVal) → Except Err (List (Key × FVal))
  | [] => .ok item
  | (k, a) :: rest =>
    match kget item k with
    | some v =>
      if v.isEll then mergeLoop item rest
      else
        match asDict v with
        | .error e => .error e
        | .ok vd =>
          if a.isEll then mergeLoop item rest
          else
            match mergeDicts vd a with
            | .error e => .error e
            | .ok m => mergeLoop (kset item k (.dict m)) rest
    | Option.none => mergeLoop (kset item k a) rest
end

/-- `merge_all_value`: `src/serializers/filter.rs` 330-352. -/
def mergeAllValue (d : List (Key × FVal)) (k : Key) : Except Err (Option FVal) :=
  match kget d k, kget d Key.all with
  | some item, some all =>
    if item.isEll || all.isEll then .ok (some item)
    else
      match asDict item with
      | .error e => .error e
      | .ok id =>
        match mergeDicts id all with
        | .error e => .error e
        | .ok m => .ok (some (.dict m))
  | some item, Option.none => .ok (some item)
  | Option.none, some all => .ok (some all)
  | Option.none, Option.none => .ok Option.none

/-- `check_contains`: `src/serializers/filter.rs` 290-306. -/
def checkContains (c : Option (Key → Option Bool)) (k : Key) : Except Err (Option Bool) :=
  match c with
  | Option.none => .ok Option.none
  | some f =>
    match f k with
    | Option.none => .ok Option.none
    | some true => .ok (some true)
    | some false =>
      match f Key.all with
      | Option.none => .error .contains
      | some b => .ok (some b)

/-- The two filters: `AnyFilter` (`src/serializers/filter.rs` 259-260), and `SchemaFilter<T>` (12-16)
with the sets given in the schema. `T` is the index of a sequence item or the hash of a dict key. -/
inductive Filt where
  | any
  | schema (incl excl : Option (List Int))
deriving DecidableEq, Repr

/-- `explicit_include`: `src/serializers/filter.rs` 242-247, 312-314. -/
def Filt.explicitInclude : Filt → Int → Bool
  | .any, _ => false
  | .schema (some inc) _, v => inc.contains v
  | .schema Option.none _, _ => false

/-- `default_filter`: `src/serializers/filter.rs` 249-256, 316-318. -/
def Filt.defaultFilter : Filt → Int → Bool
  | .any, _ => true
  | .schema (some inc) (some exc), v => inc.contains v && !exc.contains v
  | .schema (some inc) Option.none, v => inc.contains v
  | .schema Option.none (some exc), v => !exc.contains v
  | .schema Option.none Option.none, _ => true

/-- `NextFilters`: `none` omits the item, otherwise the filters for the nested value
(`src/serializers/filter.rs` 60). -/
abbrev Next := Option (Option FVal × Option FVal)

/-- First half of `FilterLogic::filter`: `src/serializers/filter.rs` 160-187. `none` means "omit";
`some next` carries `next_exclude` on. -/
def excludeStep (k : Key) (exclude : Option FVal) : Except Err (Option (Option FVal)) :=
  match exclude with
  | Option.none => .ok (some Option.none)
  | some .none => .ok (some Option.none)
  | some (.dict d) =>
    match mergeAllValue d k with
    | .error e => .error e
    | .ok Option.none => .ok (some Option.none)
    | .ok (some v) => if v.isEll then .ok Option.none else .ok (some (some v))
  | some (.set ks) =>
    if ks.contains k || ks.contains Key.all then .ok Option.none else .ok (some Option.none)
  | some .ell => .error .type
  | some (.other c) =>
    match checkContains c k with
    | .error e => .error e
    | .ok (some true) => .ok Option.none
    | .ok (some false) => .ok (some Option.none)
    | .ok Option.none => .error .type

/-- Second half of `FilterLogic::filter`: `src/serializers/filter.rs` 189-234. -/
def includeStep (f : Filt) (k : Key) (intKey : Int) (incl : Option FVal) (nextExclude : Option FVal) :
    Except Err Next :=
  let rest : Except Err Next :=
    if nextExclude.isSome then .ok (some (Option.none, nextExclude))
    else if f.defaultFilter intKey then .ok (some (Option.none, Option.none))
    else .ok Option.none
  let absent : Except Err Next :=
    if !f.explicitInclude intKey then .ok Option.none else rest
  match incl with
  | Option.none => rest
  | some .none => rest
  | some (.dict d) =>
    match mergeAllValue d k with
    | .error e => .error e
    | .ok (some v) =>
      if v.isEll then .ok (some (Option.none, nextExclude)) else .ok (some (some v, nextExclude))
    | .ok Option.none => absent
  | some (.set ks) =>
    if ks.contains k || ks.contains Key.all then .ok (some (Option.none, nextExclude)) else absent
  | some .ell => .error .type
  | some (.other c) =>
    match checkContains c k with
    | .error e => .error e
    | .ok (some true) => .ok (some (Option.none, nextExclude))
    | .ok (some false) => absent
    | .ok Option.none => .error .type

/-- `FilterLogic::filter`: `src/serializers/filter.rs` 153-235. -/
def filter (f : Filt) (k : Key) (intKey : Int) (incl excl : Option FVal) : Except Err Next :=
  match excludeStep k excl with
  | .error e => .error e
  | .ok Option.none => .ok Option.none
  | .ok (some nextExclude) => includeStep f k intKey incl nextExclude

/-- `Option::map(map_negative_indices).transpose()`: `src/serializers/filter.rs` 101-102, 284-285. -/
def mapOpt (f : Option FVal) (len : Option Nat) : Except Err (Option FVal) :=
  match f with
  | Option.none => .ok Option.none
  | some f =>
    match mapNegativeIndices f len with
    | .error e => .error e
    | .ok f' => .ok (some f')

/-- `index_filter`: `src/serializers/filter.rs` 94-104, 277-287. -/
def indexFilter (f : Filt) (index : Nat) (incl excl : Option FVal) (len : Option Nat) :
    Except Err Next :=
  match mapOpt incl len with
  | .error e => .error e
  | .ok incl' =>
    match mapOpt excl len with
    | .error e => .error e
    | .ok excl' => filter f (.i index) index incl' excl'

/-- `key_filter`: `src/serializers/filter.rs` 133-141 (with the hash of the key) and 267-275 (with 0).
Simplification: hashing an `int` or `str` never raises. -/
def keyFilter (hash : Key → Int) (f : Filt) (k : Key) (incl excl : Option FVal) : Except Err Next :=
  match f with
  | .any => filter .any k 0 incl excl
  | f => filter f k (hash k) incl excl

/-- The data being serialised: lists, dicts, and everything else.

Models: `ObType::List`, `ObType::Dict` and the rest in `infer_to_python_known`
(`src/serializers/infer.rs` 249-296). Simplification: tuples are lists; models and dataclasses are
dealt with elsewhere; other values are opaque. -/
inductive Val where
  | leaf (n : Nat)
  | list (items : List Val)
  | dict (es : List (Key × Val))
deriving Repr

/-- Serialisers: `any` (`infer_to_python`), `list-schema` and `dict-schema` with the filters of their
`serialization` schema: `src/serializers/type_serializers/list.rs` 39-44, `dict.rs` 41-65. -/
inductive Ser where
  | any
  | list (f : Filt) (item : Ser)
  | dict (f : Filt) (value : Ser)
deriving Repr

/-- The filter and item serialiser used on a list: the list serialiser's own (`list.rs` 59-76), or
inference when the serialiser is for something else (`list.rs` 78-81, `dict.rs` 102-105, and
`infer.rs` 72-92). Simplification: the warning of `on_fallback_py` is not modelled here. -/
def Ser.onList : Ser → Filt × Ser
  | .list f s => (f, s)
  | _ => (.any, .any)

/-- The filter and value serialiser used on a dict: `dict.rs` 83-106, `infer.rs` 266-269. -/
def Ser.onDict : Ser → Filt × Ser
  | .dict f s => (f, s)
  | _ => (.any, .any)

mutual
/-- `to_python` (mode `python`) of these serialisers on a value: `infer.rs` 40-299,
`type_serializers/list.rs` 52-83, `type_serializers/dict.rs` 75-107.
Simplification: the recursion guard (a value that contains itself) is not modelled: `Val` is a tree. -/
def toPython (hash : Key → Int) (s : Ser) (v : Val) (incl excl : Option FVal) : Except Err Val :=
  match v with
  | .leaf n => .ok (.leaf n)
  | .list items => (itemsToPython hash s.onList.1 s.onList.2 items.length 0 items incl excl).map .list
  | .dict es => (pairsToPython hash s.onDict.1 s.onDict.2 es incl excl).map .dict
/-- The loop over a sequence: `infer.rs` 79-89, `list.rs` 65-75. -/
def itemsToPython (hash : Key → Int) (f : Filt) (s : Ser) (len : Nat) (index : Nat) (items : List Val)
    (incl excl : Option FVal) : Except Err (List Val) :=
  match items with
  | [] => .ok []
  | v :: rest =>
    match indexFilter f index incl excl (some len) with
    | .error e => .error e
    | .ok Option.none => itemsToPython hash f s len (index + 1) rest incl excl
    | .ok (some (ni, ne)) =>
      match toPython hash s v ni ne with
      | .error e => .error e
      | .ok v' =>
        match itemsToPython hash f s len (index + 1) rest incl excl with
        | .error e => .error e
        | .ok vs => .ok (v' :: vs)
/-- The loop over a dict: `serialize_pairs_python` (`infer.rs` 700-721), `dict.rs` 88-99. The keys of
the result are the keys kept, which are distinct as they come from a dict. -/
def pairsToPython (hash : Key → Int) (f : Filt) (s : Ser) (es : List (Key × Val))
    (incl excl : Option FVal) : Except Err (List (Key × Val)) :=
  match es with
  | [] => .ok []
  | (k, v) :: rest =>
    match keyFilter hash f k incl excl with
    | .error e => .error e
    | .ok Option.none => pairsToPython hash f s rest incl excl
    | .ok (some (ni, ne)) =>
      match toPython hash s v ni ne with
      | .error e => .error e
      | .ok v' =>
        match pairsToPython hash f s rest incl excl with
        | .error e => .error e
        | .ok vs => .ok ((k, v') :: vs)
end

end PC.Filter
