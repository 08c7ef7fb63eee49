/-
What serialising a model should output, written without reference to the loops of the serialiser.
-/
import Verif.Model.SerFields
import Verif.Spec.Filter

namespace PC.SerFields

open PC.Filter (Key FVal Says given)

/-- The call's `include` and `exclude` keep the item at key `k`, and filter its content with `ni` and
`ne`: `exclude` does not name it, and `include`, if given, mentions it. -/
def Kept (k : Key) (incl excl ni ne : Option FVal) : Prop :=
  ∃ ri re, Says k incl ri ∧ Says k excl re ∧ re.any FVal.isEll = false ∧
    (given (incl.getD .none) = true → ri.isSome = true) ∧
    ni = ri.filter (fun f => !f.isEll) ∧ ne = re

/-- The filter is a set or a dict (or absent) and can be read at this key. -/
def Readable (k : Key) (f : Option FVal) : Prop := ∃ r, Says k f r

/-- The name under which a field is output: its alias if it has one and aliases are asked for, by the
call or, when the call does not say, by the model. -/
def shownAs {α β ε : Type} (o : Opts) (name : String) (f : SerField α β ε) : String :=
  match o.byAlias, f.byAlias with
  | some true, _ => f.alias.getD name
  | Option.none, some true => f.alias.getD name
  | _, _ => name

/-- The same for computed fields, which always have an alias. -/
def computedAs {α β ε : Type} (o : Opts) (c : Computed α β ε) : String :=
  match o.byAlias, c.byAlias with
  | some true, _ => c.alias
  | Option.none, some true => c.alias
  | _, _ => c.name

/-- The value equals the default of the field. -/
def IsDefault {α β ε : Type} (env : Env α β ε) (ser : FSer α β ε) (v : α) : Prop :=
  ∃ d, ser.getDefault = .ok (some d) ∧ env.eq v d = .ok true

/-- The instance has a declared field `name` with value `v`, and nothing excludes it. -/
structure ShownField {α β ε : Type} (s : FieldsSer α β ε) (env : Env α β ε) (o : Opts)
    (incl excl : Option FVal) (m : Inst α ε) (name : String) (f : SerField α β ε) (ser : FSer α β ε)
    (v : α) (ni ne : Option FVal) : Prop where
  inDict : (.s name, v) ∈ m.dict
  declared : (name, f) ∈ s.fields
  notExcludedBySchema : f.serializer = some ser
  set : o.excludeUnset = true → .s name ∈ m.fieldsSet
  notNone : o.excludeNone = true → env.isNone v = false
  notDefault : o.excludeDefaults = true → ¬ IsDefault env ser v
  kept : Kept (.s name) incl excl ni ne

/-- The output has `b` under `k` because of a field. -/
def FieldEntry {α β ε : Type} (s : FieldsSer α β ε) (env : Env α β ε) (o : Opts)
    (incl excl : Option FVal) (m : Inst α ε) (k : Key) (b : β) : Prop :=
  ∃ name f ser v ni ne, ShownField s env o incl excl m name f ser v ni ne ∧
    k = .s (shownAs o name f) ∧ ser.toPython v ni ne = .ok b

/-- The instance has an extra item `k` with value `v`: in `__pydantic_extra__` of a model, or an
undeclared (and, for `exclude_unset`, set) item of a typed dict that allows them. -/
def IsExtra {α β ε : Type} (s : FieldsSer α β ε) (o : Opts) (m : Inst α ε) (k : Key) (v : α) : Prop :=
  (s.mode = .modelExtra ∧ ∃ x, m.extra = some x ∧ (k, v) ∈ x) ∨
  (s.mode = .typedDictAllow ∧ (k, v) ∈ m.dict ∧ (o.excludeUnset = true → k ∈ m.fieldsSet) ∧
    ∀ f, ∀ name, (name, f) ∈ s.fields → k ≠ .s name)

/-- The output has `b` under `k` because of an extra item, serialised by the serialiser for extras or else
by inference. -/
def ExtraEntry {α β ε : Type} (s : FieldsSer α β ε) (env : Env α β ε) (o : Opts)
    (incl excl : Option FVal) (m : Inst α ε) (k : Key) (b : β) : Prop :=
  ∃ v ni ne, IsExtra s o m k v ∧ (o.excludeNone = true → env.isNone v = false) ∧ Kept k incl excl ni ne ∧
    (match s.extraSer with
      | some ser => ser.toPython v ni ne
      | Option.none => env.inferPython v ni ne) = .ok b

/-- The output has `b` under `k` because of a computed field. -/
def ComputedEntry {α β ε : Type} (s : FieldsSer α β ε) (env : Env α β ε) (o : Opts)
    (incl excl : Option FVal) (m : Inst α ε) (k : Key) (b : β) : Prop :=
  ∃ c v ni ne, c ∈ s.computed ∧ o.roundTrip = false ∧ m.attr c.name = .ok v ∧
    Kept (.s c.name) incl excl ni ne ∧ c.serializer.toPython v ni ne = .ok b ∧
    (o.excludeNone = true → env.isNoneOut b = false) ∧ k = .s (computedAs o c)

/-- The key under which an item of the `__dict__` might be output. -/
def itemKey {α β ε : Type} (s : FieldsSer α β ε) (o : Opts) : Key → Option Key
  | .i _ => Option.none
  | .s name =>
    match s.fields.lookup name with
    | some f => some (.s (shownAs o name f))
    | Option.none => if s.mode = .typedDictAllow then some (.s name) else Option.none

/-- The keys under which something might be output: items of the `__dict__`, extras, computed fields. -/
def allKeys {α β ε : Type} (s : FieldsSer α β ε) (o : Opts) (m : Inst α ε) : List Key :=
  m.dict.filterMap (fun e => itemKey s o e.1)
    ++ (if s.mode = .modelExtra then (m.extra.getD []).map (·.1) else [])
    ++ s.computed.map (fun c => .s (computedAs o c))

/-- Reading a JSON object with possibly repeated keys as a Python dict: a repeated key keeps its first
place and its last value. -/
def readObject {β : Type} (es : List (String × β)) : List (Key × β) :=
  es.foldl (fun d e => PC.Filter.kset d (.s e.1) e.2) []

end PC.SerFields
