import Verif.Model.Fields

/-
Vocabulary in which the properties of models and typed dicts (C10-C15) are stated.
-/

namespace PC.Fields
open PC.Lookup
variable {α : Type}

/-- What happened to one field: the lookup raised, the lookup reported validation errors, a value
was found (through `path`) and validated, or there was no value and the default was asked for. -/
inductive Outcome (α : Type) where
  | raised (e : ValError α)
  | unreadable (ls : List (LineError α))
  | validated (path : LookupPath) (value : α) (r : ValResult α α)
  | defaulted (key : LookupKey) (r : ValResult α (Option α))

structure FieldVisit (α : Type) where
  field : Field α
  outcome : Outcome α

namespace FieldVisit

/-- The entry the field contributes to the output: its validated value or its default. -/
def output (x : FieldVisit α) : Dict α :=
  match x.outcome with
  | .validated _ _ (.ok v) => [(x.field.name, v)]
  | .defaulted _ (.ok (some v)) => [(x.field.name, v)]
  | _ => []

/-- The field's name, if the input supplied a value for it that was accepted. -/
def supplied (x : FieldVisit α) : List String :=
  match x.outcome with
  | .validated _ _ (.ok _) => [x.field.name]
  | _ => []

/-- The input key the field was found through. -/
def used (x : FieldVisit α) : List String :=
  match x.outcome with
  | .validated path _ _ => [path.first]
  | _ => []

/-- Nothing but values, validation errors and requests to omit the field. -/
def Plain (x : FieldVisit α) : Prop :=
  match x.outcome with
  | .raised _ => False
  | .unreadable _ => True
  | .validated _ _ r => ∀ e, r = .error e → (∃ ls, e = .lineErrors ls) ∨ e = .omitted
  | .defaulted _ r => ∀ e, r = .error e → (∃ ls, e = .lineErrors ls) ∨ e = .omitted

/-- The errors of a model field: those of a rejected value at the alias path it was found through,
those of an unreadable value at the field name, `missing` if there is neither value nor default,
and those of an invalid default as they are (already located at the field name). -/
def errors (input : α) (locByAlias : Bool) (x : FieldVisit α) : List (LineError α) :=
  match x.outcome with
  | .unreadable ls => ls.map (·.withOuterLocation (.s x.field.name))
  | .validated path _ (.error (.lineErrors ls)) =>
    ls.map (path.applyErrorLoc · locByAlias x.field.name)
  | .defaulted key (.ok none) => (key.error .missing input locByAlias x.field.name).toList
  | .defaulted _ (.error (.lineErrors ls)) => ls
  | _ => []

/-- The errors of a typed-dict field: as for models, except that absent fields that are not
required, and the last value of a partial input if not required, are not errors.  (Errors of
reading the value are dropped unless the field is the last key of a partial input.) -/
def dictErrors (input : α) (locByAlias : Bool) (lastKey : Option LocItem) (x : FieldVisit α) :
    List (LineError α) :=
  match x.outcome with
  | .unreadable ls =>
    if lastKey = some (.s x.field.name) then ls.map (·.withOuterLocation (.s x.field.name)) else []
  | .validated path _ (.error (.lineErrors ls)) =>
    if lastKey = some (.s path.first) ∧ x.field.required = false then []
    else ls.map (path.applyErrorLoc · locByAlias x.field.name)
  | .defaulted key (.ok none) =>
    if x.field.required then (key.error .missing input locByAlias x.field.name).toList else []
  | .defaulted _ (.error (.lineErrors ls)) => ls
  | _ => []

end FieldVisit

/-- Look up and validate one field.  `data` are the entries produced so far, seen by the
validator; `prep` prepares the state for a value found through a path.  Whatever the validator does
to `extra` is undone afterwards. -/
def fieldVisit (get : LookupKey → ValResult α (Option (LookupPath × α))) (byAlias byName : Bool)
    (prep : LookupPath → VState α → VState α) (f : Field α) (data : Dict α) (st : VState α) :
    FieldVisit α × VState α :=
  match f.keys.select byAlias byName with
  | .error e => (⟨f, .raised (.internal e)⟩, st)
  | .ok key =>
    match get key with
    | .error (.lineErrors ls) => (⟨f, .unreadable ls⟩, st)
    | .error e => (⟨f, .raised e⟩, st)
    | .ok (some (path, value)) =>
      let r := f.run value
        { prep path st with extra := { st.extra with data := some data, fieldName := some f.name } }
      (⟨f, .validated path value r.1⟩, { r.2 with extra := st.extra })
    | .ok none =>
      let r := f.dflt (some (.s f.name)) { st with extra := { st.extra with data := some data } }
      (⟨f, .defaulted key r.1⟩, { r.2 with extra := st.extra })

/-- Look up and validate the fields one after the other, the state flowing from field to field. -/
def fieldVisits (get : LookupKey → ValResult α (Option (LookupPath × α))) (byAlias byName : Bool)
    (prep : LookupPath → VState α → VState α) :
    List (Field α) → Dict α → VState α → List (FieldVisit α) × VState α
  | [], _, st => ([], st)
  | f :: fs, data, st =>
    let x := fieldVisit get byAlias byName prep f data st
    let r := fieldVisits get byAlias byName prep fs (data ++ x.1.output) x.2
    (x.1 :: r.1, r.2)

/-- What happened to one input item that no field was found through: its key was refused, or it got
an output key and the value was validated. -/
inductive ExtraOutcome (α : Type) where
  | badKey (e : ValError α)
  | entry (key : String) (r : ValResult α α)

structure ExtraVisit (α : Type) where
  rawKey : α
  value : α
  outcome : ExtraOutcome α

/-- Look at one item of the input with `extra = allow`.  Nothing happens if a field was found
through its key; otherwise the key must be a string and pass the optional key validator, and the
value passes the optional value validator (in the state prepared by `prep`). -/
def extraVisit (ops : KeyOps α) (keysV valuesV : Option (Validator α α))
    (prep : α → VState α → VState α) (used : List String) (k v : α) (st : VState α) :
    Option (ExtraVisit α) × VState α :=
  match ops.str k with
  | .error (.lineErrors ls) =>
    (some ⟨k, v, .badKey (.lineErrors (ls.map fun l => { l with type := .invalidKey }))⟩, st)
  | .error e => (some ⟨k, v, .badKey e⟩, st)
  | .ok key =>
    if key ∈ used then (none, st)
    else
      let rk : ValResult α String × VState α :=
        match keysV with
        | none => (.ok key, st)
        | some kv =>
          let r := kv k st
          match r.1 with
          | .ok w => match ops.downcast w with
            | some s => (.ok s, r.2)
            | none => (.error (.internal ⟨"TypeError"⟩), r.2)
          | .error e => (.error e, r.2)
      match rk.1 with
      | .error e => (some ⟨k, v, .badKey e⟩, rk.2)
      | .ok key' =>
        match valuesV with
        | none => (some ⟨k, v, .entry key' (.ok v)⟩, rk.2)
        | some vv =>
          let rv := vv v (prep k rk.2)
          (some ⟨k, v, .entry key' rv.1⟩, rv.2)

/-- Look at the items of the input one after the other, the state flowing from item to item. -/
def extraVisits (ops : KeyOps α) (keysV valuesV : Option (Validator α α))
    (prep : α → VState α → VState α) (used : List String) :
    List (α × α) → VState α → List (ExtraVisit α) × VState α
  | [], st => ([], st)
  | kv :: rest, st =>
    let x := extraVisit ops keysV valuesV prep used kv.1 kv.2 st
    let r := extraVisits ops keysV valuesV prep used rest x.2
    (x.1.toList ++ r.1, r.2)

namespace ExtraVisit

/-- The entry an accepted item contributes. -/
def output (x : ExtraVisit α) : Dict α :=
  match x.outcome with
  | .entry key (.ok v) => [(key, v)]
  | _ => []

/-- Nothing but values and validation errors. -/
def Plain (x : ExtraVisit α) : Prop :=
  match x.outcome with
  | .badKey e => ∃ ls, e = .lineErrors ls
  | .entry _ r => ∀ e, r = .error e → ∃ ls, e = .lineErrors ls

/-- The errors of an extra item, each at its key. -/
def errors (ops : KeyOps α) (x : ExtraVisit α) : List (LineError α) :=
  match x.outcome with
  | .badKey (.lineErrors ls) => ls.map (·.withOuterLocation (ops.loc x.rawKey))
  | .entry _ (.error (.lineErrors ls)) => ls.map (·.withOuterLocation (ops.loc x.rawKey))
  | _ => []

/-- The same in a typed dict: the errors of the last value of a partial input are forgiven. -/
def dictErrors (ops : KeyOps α) (lastKey : Option LocItem) (x : ExtraVisit α) :
    List (LineError α) :=
  match x.outcome with
  | .entry _ (.error (.lineErrors _)) =>
    if lastKey = some (ops.loc x.rawKey) then [] else x.errors ops
  | _ => x.errors ops

end ExtraVisit

/-- The errors of `extra = forbid`: one per item whose key no field was found through. -/
def forbidErrors (ops : KeyOps α) (used : List String) (entries : List (α × α)) :
    List (LineError α) :=
  entries.flatMap fun kv =>
    match ops.str kv.1 with
    | .error (.lineErrors ls) =>
      ls.map fun e => { e.withOuterLocation (ops.loc kv.1) with type := .invalidKey }
    | .error _ => []
    | .ok key => if key ∈ used then [] else [⟨.extraForbidden, .list [ops.loc kv.1], kv.2⟩]

/-- Looking at a key never raises anything but validation errors. -/
def PlainKeys (ops : KeyOps α) (entries : List (α × α)) : Prop :=
  ∀ kv ∈ entries, ∀ e, ops.str kv.1 = .error e → ∃ ls, e = .lineErrors ls

/-- The dict built from entries in order; later ones replace earlier ones. -/
def dictOf (ps : Dict α) : Dict α := ps.foldl (fun d kv => Dict.set kv.1 kv.2 d) []

/-- No two fields have the same name (the fields of a schema are the keys of a dict). -/
def DistinctNames (fields : List (Field α)) : Prop := (fields.map Field.name).Nodup

/-- The lookup keys of every field are built from its alias (if any) and name. -/
def WellKeyed (fields : List (Field α)) : Prop :=
  ∀ f ∈ fields, ∃ alias?, KeyCollection.new alias? f.name = some f.keys

/-- Errors that do not reject: a request to leave the field out, or an empty list of errors. -/
def Dropped (e : ValError α) : Prop := e = .omitted ∨ e = .lineErrors []

/-- What the output holds for field `f`, given what was found in the input: the result of the
field's validator on the value found, or else the default.  `data` are the fields already
validated. -/
def FieldResult (f : Field α) (found : Option (LookupPath × α)) (held : Option α) (data : Dict α)
    (st : VState α) : Prop :=
  match found with
  | some (_, value) =>
    (∃ v, held = some v ∧ (f.run value
      { st with extra := { st.extra with data := some data, fieldName := some f.name } }).1 = .ok v) ∨
    (∃ e, held = none ∧ Dropped e ∧ (f.run value
      { st with extra := { st.extra with data := some data, fieldName := some f.name } }).1 = .error e)
  | none =>
    (∃ v, held = some v ∧ (f.dflt (some (.s f.name))
      { st with extra := { st.extra with data := some data } }).1 = .ok (some v)) ∨
    (∃ e, held = none ∧ Dropped e ∧ (f.dflt (some (.s f.name))
      { st with extra := { st.extra with data := some data } }).1 = .error e)

/-- The state in which the inner validators of a model run: partial mode off. -/
def modelState (st : VState α) : VState α := { st with allowPartial := .off }

/-- The input is readable as a model's input, and `view` is what is read from it. -/
def ModelFields.Reads (m : ModelFields α) (input : α) (st : VState α) (view : DictView α) : Prop :=
  m.asFields (st.strictOr m.strict) (st.extra.fromAttributes.getD m.fromAttributes) input = .ok view

/-- The input is readable as a typed dict's input. -/
def TypedDict.Reads (t : TypedDict α) (input : α) (st : VState α) (view : DictView α) : Prop :=
  t.asDict (st.strictOr t.strict) input = .ok view

/-- The visits of a model's fields. -/
def ModelFields.visits (m : ModelFields α) (view : DictView α) (st : VState α) :
    List (FieldVisit α) × VState α :=
  fieldVisits view.get (st.validateByAliasOr m.byAlias) (st.validateByNameOr m.byName)
    (fun _ st => st) m.fields [] (modelState st)

/-- The visits of the input's other items, after the fields. -/
def ModelFields.extras (m : ModelFields α) (view : DictView α) (entries : List (α × α))
    (st : VState α) : List (ExtraVisit α) × VState α :=
  extraVisits m.keyOps m.extrasKeysV m.extrasV (fun _ st => st)
    ((m.visits view st).1.flatMap FieldVisit.used) entries (m.visits view st).2

/-- The result for a model: errors if there are any, otherwise the output. -/
def outcomeOf {β : Type} (errs : List (LineError α)) (out : β) : ValResult α β :=
  if errs = [] then .ok out else .error (.lineErrors errs)

/-- The last key of a partial input. -/
def TypedDict.lastKey (_t : TypedDict α) (view : DictView α) (st : VState α) : Option LocItem :=
  if st.allowPartial.isActive then view.lastKey else none

/-- The state prepared for a typed-dict value: partial mode stays on only for the last key. -/
def lastOnly (lastKey : Option LocItem) (saved : PartialMode) (key : LocItem) (st : VState α) :
    VState α :=
  { st with allowPartial := if lastKey = some key then saved else .off }

/-- The visits of a typed dict's fields. -/
def TypedDict.visits (t : TypedDict α) (view : DictView α) (st : VState α) :
    List (FieldVisit α) × VState α :=
  fieldVisits view.get (st.validateByAliasOr t.byAlias) (st.validateByNameOr t.byName)
    (fun path => lastOnly (t.lastKey view st) st.allowPartial (.s path.first)) t.fields [] st

/-- The visits of the input's other items, after the fields. -/
def TypedDict.extras (t : TypedDict α) (view : DictView α) (entries : List (α × α))
    (st : VState α) : List (ExtraVisit α) × VState α :=
  extraVisits t.keyOps none t.extrasV
    (fun k => lastOnly (t.lastKey view st) st.allowPartial (t.keyOps.loc k))
    ((t.visits view st).1.flatMap FieldVisit.used) entries
    ((t.visits view st).2.addFieldsSet ((t.visits view st).1.flatMap FieldVisit.supplied).length)

end PC.Fields
