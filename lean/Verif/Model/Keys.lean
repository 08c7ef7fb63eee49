import Verif.Model.Bytes
import Verif.Model.SerTuple

/-
Dict keys in JSON (`src/serializers/infer.rs`, `type_serializers/tuple.rs`, `type_serializers/dict.rs`).
-/

namespace PC.Keys

open PC.Bytes (Mode bytesToString)

/-- A Python object used as a key, by its `ObType`. Two keys that differ here are different keys of a dict
(`1`, `1.0` and `True` are one key for Python, but only one of them can be in a dict). -/
inductive Key where
  | none
  | bool (b : Bool)
  | int (i : Int)
  /-- A float, given by its `str`. -/
  | float (text : List Char)
  | str (s : List Char)
  | bytes (b : List UInt8)
  /-- Decimals, dates, times, UUIDs, URLs, paths, …: the type and the text used as key. -/
  | other (ty : Nat) (text : List Char)
  | tuple (ks : List Key)
  /-- A member of an enum: the class and the value. -/
  | enum (cls : Nat) (value : Key)
  /-- A frozenset, or a list, set or dict as the value of an enum: not valid as object key. -/
  | invalid

/-- Errors on the way to a key. -/
inductive KeyErr where
  | unicode
  | notValid
  deriving DecidableEq

/-- The part of the configuration that matters: `inf_nan_mode == null`, the mode for bytes, and
`std::str::from_utf8`. -/
structure Cfg where
  infNanNull : Bool
  bytesMode : Mode
  fromUtf8 : List UInt8 → Option (List Char)

/-- `KeyBuilder`, `src/serializers/type_serializers/tuple.rs:254-257`. -/
structure KeyBuilder where
  key : List Char
  first : Bool

/-- `KeyBuilder::new`, `tuple.rs:260-265`. -/
def KeyBuilder.new : KeyBuilder := ⟨[], true⟩

/-- `KeyBuilder::push`, `tuple.rs:267-274`. -/
def KeyBuilder.push (b : KeyBuilder) (k : List Char) : KeyBuilder :=
  if b.first then ⟨b.key ++ k, false⟩ else ⟨b.key ++ ',' :: k, false⟩

/-- `none_json_key`, `src/serializers/type_serializers/simple.rs:32-34`. -/
def noneJsonKey : List Char := "None".toList

/-- `bool_json_key`, `simple.rs:185-192`. -/
def boolJsonKey (b : Bool) : List Char := if b then "true".toList else "false".toList

/-- Whether a float with this `str` is finite. -/
def isFinite (text : List Char) : Bool := !["nan".toList, "inf".toList, "-inf".toList].contains text

mutual
/-- `infer_json_key` and `infer_json_key_known`, `src/serializers/infer.rs:585-698`, without the cases of
dataclasses and unknown objects. -/
def inferKey (c : Cfg) : Key → Except KeyErr (List Char)
  | .none => .ok noneJsonKey
  | .bool b => .ok (boolJsonKey b)
  | .int i => .ok (toString i).toList
  | .float text => if !isFinite text && c.infNanNull then .ok noneJsonKey else .ok text
  | .str s => .ok s
  | .bytes b =>
    match bytesToString c.fromUtf8 c.bytesMode b with
    | some s => .ok s
    | Option.none => .error .unicode
  | .other _ text => .ok text
  | .tuple ks =>
    match inferKeys c ks .new with
    | .ok b => .ok b.key
    | .error e => .error e
  | .enum _ v => inferKey c v
  | .invalid => .error .notValid
/-- The loop of the tuple case, `infer.rs:653-659`. -/
def inferKeys (c : Cfg) : List Key → KeyBuilder → Except KeyErr KeyBuilder
  | [], b => .ok b
  | k :: ks, b =>
    match inferKey c k with
    | .ok t => inferKeys c ks (b.push t)
    | .error e => .error e
end

/-- `TupleSerializer::json_key` for a tuple, `tuple.rs:96-115`: the schema's filter applies, the call's does
not; `jsonKey` is the `json_key` of the items' serialisers. The state is the builder; warnings are left out. -/
def tupleJsonKey {S : Type} (t : SerTuple.TupSer S) (flt : Nat → Except KeyErr (Option Unit))
    (jsonKey : S → Key → Except KeyErr (List Char)) (anySer : S) (strict : Bool) (ks : List Key) :
    Except (SerTuple.Stop KeyErr) (List Char) :=
  match SerTuple.forEach t flt
      (fun e (b : KeyBuilder) =>
        match jsonKey e.ser e.item with
        | .error err => .error err
        | .ok s => .ok (b.push s))
      anySer id strict ks .new with
  | .error e => .error e
  | .ok b => .ok b.key

variable {V N O E : Type}

/-- `PyDict::set_item`: an existing key keeps its place and takes the new value. -/
def setItem (k : List Char) (o : O) : List (List Char × O) → List (List Char × O)
  | [] => [(k, o)]
  | (k', o') :: rest => if k' = k then (k, o) :: rest else (k', o') :: setItem k o rest

/-- `DictSerializer::to_python` in JSON mode, `src/serializers/type_serializers/dict.rs:84-100`, and
`serialize_pairs_python` with `infer_json_key`, `src/serializers/infer.rs:700-721, 164-170`. `flt` is the
filter, `jsonKey` and `ser` are the serialisers of keys and values. -/
def dictPython (flt : Key → Except E (Option N)) (jsonKey : Key → Except E (List Char))
    (ser : V → N → Except E O) : List (Key × V) → List (List Char × O) → Except E (List (List Char × O))
  | [], acc => .ok acc
  | (k, v) :: rest, acc =>
    match flt k with
    | .error e => .error e
    | .ok none => dictPython flt jsonKey ser rest acc
    | .ok (some n) =>
      match jsonKey k with
      | .error e => .error e
      | .ok t =>
        match ser v n with
        | .error e => .error e
        | .ok o => dictPython flt jsonKey ser rest (setItem t o acc)

/-- `DictSerializer::serde_serialize`, `dict.rs:121-142`, and `serialize_pairs_json`, `infer.rs:723-745`: the
entries written to the document. -/
def dictJson (flt : Key → Except E (Option N)) (jsonKey : Key → Except E (List Char))
    (ser : V → N → Except E O) : List (Key × V) → Except E (List (List Char × O))
  | [] => .ok []
  | (k, v) :: rest =>
    match flt k with
    | .error e => .error e
    | .ok none => dictJson flt jsonKey ser rest
    | .ok (some n) =>
      match jsonKey k with
      | .error e => .error e
      | .ok t =>
        match ser v n with
        | .error e => .error e
        | .ok o =>
          match dictJson flt jsonKey ser rest with
          | .error e => .error e
          | .ok doc => .ok ((t, o) :: doc)

end PC.Keys
