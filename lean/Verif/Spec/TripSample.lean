import Verif.Spec.RoundTrip
import Mathlib.Tactic.DeriveCountable
import Mathlib.Data.Countable.Basic
import Mathlib.Data.Rat.Encodable
import Mathlib.Logic.Encodable.Basic
import Mathlib.Logic.Equiv.List

/-
A small world of objects for both engines, used to show that the hypotheses of the theorems about round trips can be met.
-/

namespace PC.Trip.Sample
open PC.Infer (Json Text Opts Shape)
open PC.Fields (Dict Instance DictView)
open PC.Lookup (LookupKey KeyCollection LookupPath PyOps)
open PC.Float (F64)
open PC.Comb PC.Coll PC.Engine

deriving instance Countable for F64

instance : Countable Char :=
  Function.Injective.countable (f := Char.toNat) fun _ _ h => Char.ext (UInt32.toNat_inj.mp h)

/-- Objects; lists are made of `cons` and `nil`, an entry of a dict is a `cons`. -/
inductive Obj where
  | none
  | bool (b : Bool)
  | int (i : Int)
  | float (f : F64)
  | str (t : List Char)
  | nil
  | cons (a b : Obj)
  | list (items : Obj)
  | tuple (items : Obj)
  | dict (entries : Obj)
  /-- an instance of a class, with its `__dict__`, extra items (or `none`), and the names that are set -/
  | inst (cls : Nat) (fields extra set : Obj)
  deriving Countable

/-- The items of a list. -/
def items : Obj → List Obj
  | .cons a b => a :: items b
  | _ => []

/-- A list of items. -/
def pack : List Obj → Obj
  | [] => .nil
  | a :: xs => .cons a (pack xs)

theorem items_pack : ∀ xs, items (pack xs) = xs
  | [] => rfl
  | a :: xs => by rw [pack, items, items_pack xs]

/-- An entry. -/
def entry : Obj → Obj × Obj
  | .cons a b => (a, b)
  | a => (a, .none)

/-- The entries of a dict. -/
def pairs (a : Obj) : List (Obj × Obj) := (items a).map entry

/-- A dict of entries. -/
def packPairs (kvs : List (Obj × Obj)) : Obj := pack (kvs.map fun e => .cons e.1 e.2)

theorem pairs_pack (kvs : List (Obj × Obj)) : pairs (packPairs kvs) = kvs := by
  simp [pairs, packPairs, items_pack, Function.comp_def, entry]

/-- The text of a string. -/
def text : Obj → String
  | .str t => String.ofList t
  | _ => ""

/-- A dict with string keys. -/
def decode (a : Obj) : Dict Obj := (pairs a).map fun e => (text e.1, e.2)

/-- The same as an object. -/
def encode (d : Dict Obj) : Obj := packPairs (d.map fun e => (.str e.1.toList, e.2))

theorem decode_encode (d : Dict Obj) : decode (encode d) = d := by
  simp [decode, encode, pairs_pack, Function.comp_def, text]

theorem pairs_encode (d : Dict Obj) : pairs (encode d) = d.map fun e => (.str e.1.toList, e.2) := pairs_pack _

mutual
/-- The object of a document. -/
def json : Json → Obj
  | .null => .none
  | .bool b => .bool b
  | .int i => .int i
  | .float f => .float f
  | .str t => .str t
  | .arr ds => .list (jsonItems ds)
  | .obj es => .dict (jsonEntries es)
/-- The same for items. -/
def jsonItems : List Json → Obj
  | [] => .nil
  | d :: ds => .cons (json d) (jsonItems ds)
/-- The same for entries. -/
def jsonEntries : List (Text × Json) → Obj
  | [] => .nil
  | (t, d) :: es => .cons (.cons (.str t) (json d)) (jsonEntries es)
end

theorem items_json : ∀ ds, items (jsonItems ds) = ds.map json
  | [] => rfl
  | d :: ds => by rw [jsonItems, items, items_json ds]; rfl

theorem pairs_json : ∀ es, pairs (jsonEntries es) = es.map fun e => (.str e.1, json e.2)
  | [] => rfl
  | (t, d) :: es => by
    have ih := pairs_json es
    simp only [pairs] at ih
    simp only [pairs, jsonEntries, items, List.map_cons, ih, entry]

/-- Subscription, for alias paths. -/
def ops : PyOps Obj where
  isStr | .str _ => true | _ => false
  isDict | .dict _ => true | _ => false
  getItem _ _ := .none
  getAttr _ _ := .ok .none

/-- A dict for fields. -/
def dictView (a : Obj) : DictView Obj where
  get key := key.pyGetDictItem ops fun n => .ok (Dict.get n (decode a))
  isPyGetAttr := false
  entries := .ok ((pairs a).map .ok)
  lastKey := .none

/-- Lists are lists, dicts are dicts. -/
def world : Engine.World Obj where
  identity _ := .none
  isNone | .none => true | _ => false
  noneV := .none
  asList _ v :=
    match v with
    | .list a => .ok (⟨(items a).map .ok, .none, true⟩, .exact)
    | v => .error (.new (.other "list_type") v)
  asSet _ v := .error (.new (.other "set_type") v)
  asTuple _ v :=
    match v with
    | .list a => .ok (⟨(items a).map .ok, .none, false⟩, .exact)
    | .tuple a => .ok (⟨(items a).map .ok, .none, true⟩, .exact)
    | v => .error (.new (.other "tuple_type") v)
  asDict _ v :=
    match v with
    | .dict a => .ok ((pairs a).map .ok)
    | v => .error (.new (.other "dict_type") v)
  view _ v :=
    match v with
    | .dict a => .ok (dictView a)
    | v => .error (.new (.other "dict_type") v)
  hashing := ⟨fun | .str t, .str u => t == u | _, _ => false, fun _ => .none⟩
  keyLoc v := .s (text v)
  keyOps := ⟨fun v => .ok (text v), fun v => .s (text v), fun v => some (text v)⟩
  mkList xs := .list (pack xs)
  mkSet xs := .list (pack xs)
  mkTuple xs := .tuple (pack xs)
  mkDict kvs := .dict (packPairs kvs)
  mkTyped d := .dict (encode d)
  source cls v :=
    match v with
    | .inst c fields extra set =>
      if c = cls then .exact ⟨decode fields, match extra with | .dict x => some (decode x) | _ => .none,
        (items set).map text⟩
      else .other
    | _ => .other
  mkModel cls i :=
    .inst cls (encode i.dict) (match i.extra with | some x => .dict (encode x) | .none => .none)
      (pack (i.fieldsSet.map fun n => .str n.toList))

/-- An `int`, also from text in lax mode. -/
def int : Engine.Leaf Obj where
  strict := false
  check strict v :=
    match v with
    | .int i => .ok (.int i, .exact)
    | .str t =>
      if strict then .error (.other "int_type")
      else
        match IntParse.strAsInt t with
        | .ok n => .ok (.int n, .lax)
        | .err e => .error e
        | .panic => .error (.other "panic")
    | _ => .error (.other "int_type")

/-- A `str`. -/
def str : Engine.Leaf Obj where
  strict := false
  check _ v :=
    match v with
    | .str t => .ok (.str t, .exact)
    | _ => .error (.other "string_type")

/-- An injective numbering of objects. -/
theorem numbered : ∃ f : Obj → Nat, Function.Injective f := exists_injective_nat Obj

/-- The objects for serialisers. -/
noncomputable def serWorld : Infer.World Obj where
  identity := numbered.choose
  shape v :=
    match v with
    | .none => .none
    | .bool b => .bool b
    | .int i => .int i
    | .float f => .float f
    | .str t => .str (.utf8 t)
    | .list a => .list (items a)
    | .tuple a => .tuple (items a)
    | .dict a => .dict (pairs a)
    | .inst .. => .pydantic
    | _ => .unknown
  filterKey v := .s (text v)
  str v := .ok (.utf8 (text v).toList)
  hash _ := .ok ()
  qualname _ := .none
  mkSet ys := .ok (.set ys)
  mkFrozenset ys := .ok (.frozenset ys)
  showF64 _ := "1.5".toList
  fromUtf8 _ := some "x".toList
  stack := 100

/-- `__dict__` as the model serialiser hands it to the fields, without what has not been set if so asked, and with the extra
items if there are any. -/
def inner (v : Obj) (unset hasExtra : Bool) : Except Infer.SErr Obj :=
  match v with
  | .inst _ fields extra set =>
    let main := encode ((decode fields).filter fun e => !unset || ((items set).map text).contains e.1)
    if hasExtra then .ok (.cons main (match extra with | .dict x => encode (decode x) | _ => .nil)) else .ok (.dict main)
  | _ => .error .type

/-- The dicts of fields. -/
def dicts (mode : Infer.FieldsMode) (v : Obj) : Option (List (Obj × Obj) × Option (List (Obj × Obj))) :=
  match mode, v with
  | .simpleDict, .dict a => some (pairs a, .none)
  | .modelExtra, .cons a b => some (pairs a, some (pairs b))
  | _, _ => .none

/-- The serialisers of this world. -/
noncomputable def serEnv (defs : Nat → Core Obj) : Infer.Env Obj where
  world := serWorld
  platform := .release
  isType _ _ := .no
  extractInt | .int i => some i | _ => .none
  extractBool | .bool b => some b | _ => .none
  extractFloat | .float f => some f | _ => .none
  truthy _ := true
  asStr | .str t => some (.utf8 t) | _ => .none
  asBytes _ := .none
  asList | .list a => some (items a) | _ => .none
  asTuple | .tuple a => some (items a) | _ => .none
  asSet _ _ := .none
  asDict | .dict a => some (pairs a) | _ => .none
  hash _ := 0
  allow cls _ v := .ok (match v with | .inst c .. => decide (c = cls) | _ => false)
  root v :=
    match v with
    | .inst _ fields _ _ =>
      match Dict.get "root" (decode fields) with
      | some x => .ok x
      | .none => .error (.python 0)
    | _ => .error (.python 0)
  inner := inner
  dicts := dicts
  mkDict es := .ok (.dict es)
  keyEq _ _ := false
  serializerOf _ := .error .type
  defs d := (defs d).ser

/-- Both engines. -/
noncomputable def setting (defs : Nat → Core Obj) : Setting Obj where
  V := { world := world, platform := .release, defs := fun d => (defs d).val, outOfFuel := fun _ _ st => (.error (.internal ⟨""⟩), st),
         panic := .error (.internal ⟨""⟩) }
  S := serEnv defs
  defs := defs
  json := json
  key := .str
  str n := .str n.toList

theorem shared (defs : Nat → Core Obj) : (setting defs).Shared := ⟨rfl, rfl⟩

theorem injective (defs : Nat → Core Obj) (a b : Obj)
    (h : (setting defs).S.world.identity a = (setting defs).S.world.identity b) : a = b := numbered.choose_spec h

theorem decode_json (defs : Nat → Core Obj) (es : List (Text × Json)) :
    decode (jsonEntries es) = es.map fun e => (String.ofList e.1, (setting defs).json e.2) := by
  simp [decode, pairs_json, Function.comp_def, text, setting]

theorem get_json (defs : Nat → Core Obj) (n : String) : ∀ es : List (Text × Json),
    Dict.get n (decode (jsonEntries es)) = (es.find? fun e => e.1 = n.toList).map fun e => (setting defs).json e.2 := by
  intro es
  rw [decode_json defs]
  induction es with
  | nil => rfl
  | cons e es ih =>
    obtain ⟨t, d⟩ := e
    simp only [List.map_cons, Dict.get, List.find?_cons]
    by_cases h : t = n.toList
    · subst h
      simp
    · have : ¬ String.ofList t = n := fun e => h (by rw [← e, String.toList_ofList])
      simp only [this, if_false, h, decide_false, ih]

theorem view_json (defs : Nat → Core Obj) (es : List (Text × Json)) :
    ReadsAs (setting defs) (dictView (jsonEntries es)) es := by
  refine ⟨fun key ns hn => ?_, rfl, ?_⟩
  · simp only [dictView, find]
    cases key with
    | simple p =>
      simp only [names] at hn
      split at hn
      · rename_i hp
        cases hn
        simp only [LookupKey.pyGetDictItem, get_json defs, List.findSome?_cons, List.findSome?_nil]
        cases h : es.find? fun e => e.1 = p.first.toList with
        | none => rfl
        | some e => simp only [Option.map_some]; rw [← hp]
      · cases hn
    | choice p q =>
      simp only [names] at hn
      split at hn
      · rename_i hp
        cases hn
        simp only [LookupKey.pyGetDictItem, get_json defs, List.findSome?_cons, List.findSome?_nil]
        cases h : es.find? fun e => e.1 = p.first.toList with
        | none =>
          simp only [Option.map_none]
          cases h : es.find? fun e => e.1 = q.first.toList with
          | none => rfl
          | some e => simp only [Option.map_some]; rw [← hp.2]
        | some e => simp only [Option.map_some]; rw [← hp.1]
      · cases hn
    | pathChoices ps => cases hn
  · simp only [dictView, pairs_json, List.map_map]
    rfl

theorem reads (defs : Nat → Core Obj) : Reads (setting defs) where
  identity _ := rfl
  isNone d := by cases d <;> simp [setting, json, world]
  list strict ds := ⟨.none, true, .exact, by simp [setting, json, world, items_json, Function.comp_def]⟩
  tuple strict ds := ⟨.none, false, .exact, by simp [setting, json, world, items_json, Function.comp_def]⟩
  dict strict es _ := by simp [setting, json, world, pairs_json, Function.comp_def]
  typed strict es _ := ⟨dictView (jsonEntries es), by simp [setting, json, world], view_json defs es⟩
  fields strict fa es _ := ⟨dictView (jsonEntries es), by simp [setting, json, world], view_json defs es⟩
  keyStr t := rfl
  source cls d := by cases d <;> simp [setting, json, world]

mutual
theorem plain_json : ∀ (d : Json) (a : Obj), d.isOf serWorld a → d.isOf serWorld (json d)
  | .null, _, _ => rfl
  | .bool _, _, _ => rfl
  | .int _, _, _ => rfl
  | .float f, _, h => ⟨rfl, h.2⟩
  | .str _, _, _ => rfl
  | .arr ds, _, ⟨xs, _, h⟩ => ⟨ds.map json, .inl (by simp [json, serWorld, items_json]), plain_items ds xs h⟩
  | .obj es, _, ⟨kvs, _, h⟩ =>
    ⟨es.map fun e => (.str e.1, json e.2), by simp [json, serWorld, pairs_json], plain_entries es kvs h⟩
theorem plain_items : ∀ (ds : List Json) (xs : List Obj), Infer.areItems serWorld ds xs →
    Infer.areItems serWorld ds (ds.map json)
  | [], _, _ => trivial
  | d :: ds, x :: xs, h => ⟨plain_json d x h.1, plain_items ds xs h.2⟩
theorem plain_entries : ∀ (es : List (Text × Json)) (kvs : List (Obj × Obj)), Infer.areEntries serWorld es kvs →
    Infer.areEntries serWorld es (es.map fun e => (.str e.1, json e.2))
  | [], _, _ => trivial
  | (_, d) :: es, (_, v) :: kvs, h => ⟨rfl, plain_json d v h.2.1, plain_entries es kvs h.2.2⟩
end

theorem exact_inv {cls : Nat} {a : Obj} {i : Instance Obj} (h : world.source cls a = .exact i) : ∃ f x s,
    a = .inst cls f x s ∧ i = ⟨decode f, match x with | .dict x => some (decode x) | _ => .none, (items s).map text⟩ := by
  simp only [world] at h
  split at h
  · rename_i c f x s
    split at h
    · rename_i hc
      cases hc
      cases h
      exact ⟨f, x, s, rfl, rfl⟩
    · cases h
  · cases h

theorem sees (defs : Nat → Core Obj) : Sees (setting defs) where
  str n := rfl
  none := rfl
  list ys := ⟨by simp [setting, serEnv, world, items_pack], by simp [setting, serEnv, serWorld, world]⟩
  tuple ys := ⟨by simp [setting, serEnv, world, items_pack], by simp [setting, serEnv, serWorld, world]⟩
  dict kvs _ := ⟨by simp [setting, serEnv, world, pairs_pack], by simp [setting, serEnv, serWorld, world]⟩
  typed d _ := ⟨by simp [setting, serEnv, world, dicts, pairs_encode, keyed], by simp [setting, serEnv, serWorld, world]⟩
  made cls i := by
    obtain ⟨d, x, s⟩ := i
    cases x <;> simp [setting, world, decode_encode, items_pack, Function.comp_def, text]
  allow cls a i h := by
    obtain ⟨f, x, s, rfl, _⟩ := exact_inv h
    simp [setting, serEnv, serWorld]
  inner cls a i unset h := by
    obtain ⟨f, x, s, rfl, rfl⟩ := exact_inv h
    cases x <;>
      exact ⟨_, rfl, by simp [setting, serEnv, dicts, pairs_encode, keyed]⟩
  root cls a i v h hv := by
    obtain ⟨f, x, s, rfl, rfl⟩ := exact_inv h
    simp only [setting, serEnv]
    rw [hv]
  plain d a _ h := plain_json d a h

end PC.Trip.Sample
