import Verif.Model.State
import Verif.Model.LookupKey

/-
Models of the validators for models and typed dicts: `src/validators/model_fields.rs`,
`src/validators/typed_dict.rs` and the assignment / construction part of
`src/validators/model.rs`.
-/

namespace PC.Fields
open PC.Lookup
variable {α : Type}

/-- A Python dict with string keys, in insertion order. -/
abbrev Dict (α : Type) := List (String × α)

/-- `dict[k] = v` (`PyDict::set_item`). -/
def Dict.set (k : String) (v : α) : Dict α → Dict α
  | [] => [(k, v)]
  | (k', v') :: rest => if k' = k then (k, v) :: rest else (k', v') :: Dict.set k v rest

/-- `dict.get(k)` (`PyDict::get_item`). -/
def Dict.get (k : String) : Dict α → Option α
  | [] => none
  | (k', v) :: rest => if k' = k then some v else Dict.get k rest

/-- `del dict[k]` (`PyDict::del_item`; nothing happens if the key is absent). -/
def Dict.del (k : String) (d : Dict α) : Dict α := d.filter fun kv => decide (kv.1 ≠ k)

/-- `dict.update(other)` (`PyDict::update`). -/
def Dict.update (d other : Dict α) : Dict α := other.foldl (fun d kv => Dict.set kv.1 kv.2 d) d

/-- `ExtraBehavior`, `src/build_tools.rs:179-183`. -/
inductive ExtraBehavior where
  | allow
  | forbid
  | ignore
  deriving DecidableEq, Repr

/-- What `validate_model_fields` / `validate_dict` return (trait `ValidatedDict`,
`src/input/input_abstract.rs:238-256`).  `entries` is what `iterate` runs over; its outer error
is the one `iterate` itself may return. -/
structure DictView (α : Type) where
  get : LookupKey → ValResult α (Option (LookupPath × α))
  isPyGetAttr : Bool
  entries : ValResult α (List (ValResult α (α × α)))
  lastKey : Option LocItem

/-- `Field`, `src/validators/model_fields.rs:20-27`, and `TypedDictField`,
`src/validators/typed_dict.rs:20-27` (`required` is used by typed dicts only, `frozen` by models
only).  `dflt` is the validator's `default_value`. -/
structure Field (α : Type) where
  name : String
  keys : KeyCollection
  run : Validator α α
  dflt : Option LocItem → VState α → ValResult α (Option α) × VState α
  frozen : Bool
  required : Bool

/-- What an input dict is made of: `validate_str(true, false)` on a raw key, the conversion of a
raw key to a location item, and the downcast of a validated key to a Python string. -/
structure KeyOps (α : Type) where
  str : α → ValResult α String
  loc : α → LocItem
  downcast : α → Option String

/-! ### Models -/

/-- `ModelFieldsValidator`, `src/validators/model_fields.rs:31-43`.  `asFields` is
`Input::validate_model_fields`. -/
structure ModelFields (α : Type) where
  fields : List (Field α)
  extra : ExtraBehavior
  extrasV : Option (Validator α α)
  extrasKeysV : Option (Validator α α)
  strict : Bool
  fromAttributes : Bool
  locByAlias : Bool
  byAlias : Option Bool
  byName : Option Bool
  asFields : (strict fromAttributes : Bool) → α → ValResult α (DictView α)
  keyOps : KeyOps α

/-- The tuple returned by `ModelFieldsValidator::validate`, `src/validators/model_fields.rs:377`:
`__dict__`, `__pydantic_extra__` and `__pydantic_fields_set__`.  The set is the list of the
names put into it, `src/validators/model_fields.rs:368`. -/
structure ModelOut (α : Type) where
  dict : Dict α
  extra : Option (Dict α)
  fieldsSet : List String
  deriving DecidableEq, Repr

/-- The local variables of `validate`, `src/validators/model_fields.rs:159-175`.  `used` is kept
also when the code does not track used keys (it is not consulted then). -/
structure FAcc (α : Type) where
  dict : Dict α
  errs : List (LineError α)
  fieldsSet : List String
  count : Nat
  used : List String
  st : VState α

/-- One iteration of the loop over fields, `src/validators/model_fields.rs:180-247`.  The dict in
`extra.data` is shared with the loop (`:178`), so each validator sees the fields set so far. -/
def ModelFields.fieldStep (m : ModelFields α) (view : DictView α) (input : α)
    (byAlias byName : Bool) (f : Field α) (acc : FAcc α) : ValResult α Unit × FAcc α :=
  match f.keys.select byAlias byName with
  | .error e => (.error (.internal e), acc)
  | .ok key =>
    match view.get key with
    | .error (.lineErrors ls) =>
      (.ok (), { acc with errs := acc.errs ++ ls.map (·.withOuterLocation (.s f.name)) })
    | .error e => (.error e, acc)
    | .ok (some (path, value)) =>
      let r := rebindExtra (fun x => { x with data := some acc.dict, fieldName := some f.name })
        (f.run value) acc.st
      let acc := { acc with used := acc.used ++ [path.first], st := r.2 }
      match r.1 with
      | .ok v =>
        (.ok (), { acc with dict := acc.dict.set f.name v, fieldsSet := acc.fieldsSet ++ [f.name],
                            count := acc.count + 1 })
      | .error .omitted => (.ok (), acc)
      | .error (.lineErrors ls) =>
        (.ok (), { acc with errs := acc.errs ++ ls.map (path.applyErrorLoc · m.locByAlias f.name) })
      | .error e => (.error e, acc)
    | .ok none =>
      let r := rebindExtra (fun x => { x with data := some acc.dict })
        (f.dflt (some (.s f.name))) acc.st
      let acc := { acc with st := r.2 }
      match r.1 with
      | .ok (some v) => (.ok (), { acc with dict := acc.dict.set f.name v })
      | .ok none =>
        (.ok (), { acc with
          errs := acc.errs ++ (key.error .missing input m.locByAlias f.name).toList })
      | .error .omitted => (.ok (), acc)
      | .error (.lineErrors ls) => (.ok (), { acc with errs := acc.errs ++ ls })
      | .error e => (.error e, acc)

/-- The loop over fields, `src/validators/model_fields.rs:177-248`. -/
def ModelFields.fieldLoop (m : ModelFields α) (view : DictView α) (input : α)
    (byAlias byName : Bool) : List (Field α) → FAcc α → ValResult α Unit × FAcc α
  | [], acc => (.ok (), acc)
  | f :: fs, acc =>
    let r := m.fieldStep view input byAlias byName f acc
    match r.1 with
    | .ok () => m.fieldLoop view input byAlias byName fs r.2
    | .error e => (.error e, r.2)

/-- The variables of the loop over extra items: the extras dict, the errors, the fields set and
the state. -/
structure XAcc (α : Type) where
  extra : Dict α
  errs : List (LineError α)
  fieldsSet : List String
  st : VState α

/-- The key of an extra item, `src/validators/model_fields.rs:309-323`: `ok none` is `continue`
with errors pushed. -/
def ModelFields.extraKey (m : ModelFields α) (rawKey : α) (key : String) (acc : XAcc α) :
    ValResult α (Option String) × XAcc α :=
  match m.extrasKeysV with
  | none => (.ok (some key), acc)
  | some v =>
    let r := v rawKey acc.st
    let acc := { acc with st := r.2 }
    match r.1 with
    | .ok w =>
      match m.keyOps.downcast w with
      | some k => (.ok (some k), acc)
      | none => (.error (.internal ⟨"TypeError"⟩), acc)
    | .error (.lineErrors ls) =>
      (.ok none, { acc with errs := acc.errs ++ ls.map (·.withOuterLocation (m.keyOps.loc rawKey)) })
    | .error e => (.error e, acc)

/-- One iteration of the loop over input items, `src/validators/model_fields.rs:274-343`. -/
def ModelFields.extraStep (m : ModelFields α) (used : List String) (rawKey value : α)
    (acc : XAcc α) : ValResult α Unit × XAcc α :=
  match m.keyOps.str rawKey with
  | .error (.lineErrors ls) =>
    (.ok (), { acc with errs := acc.errs ++ ls.map fun e =>
      { e.withOuterLocation (m.keyOps.loc rawKey) with type := .invalidKey } })
  | .error e => (.error e, acc)
  | .ok key =>
    if used.contains key then (.ok (), acc)
    else
      match m.extra with
      | .forbid =>
        (.ok (), { acc with errs := acc.errs ++ [.newWithLoc .extraForbidden value (m.keyOps.loc rawKey)] })
      | .ignore => (.ok (), acc)
      | .allow =>
        let rk := m.extraKey rawKey key acc
        match rk.1 with
        | .error e => (.error e, rk.2)
        | .ok none => (.ok (), rk.2)
        | .ok (some k) =>
          let acc := rk.2
          match m.extrasV with
          | some v =>
            let r := v value acc.st
            let acc := { acc with st := r.2 }
            match r.1 with
            | .ok w =>
              (.ok (), { acc with extra := acc.extra.set k w, fieldsSet := acc.fieldsSet ++ [k] })
            | .error (.lineErrors ls) =>
              (.ok (), { acc with errs := acc.errs ++ ls.map (·.withOuterLocation (m.keyOps.loc rawKey)) })
            | .error e => (.error e, acc)
          | none =>
            (.ok (), { acc with extra := acc.extra.set k value, fieldsSet := acc.fieldsSet ++ [k] })

/-- The loop over input items, `src/validators/model_fields.rs:272-346`. -/
def ModelFields.extraLoop (m : ModelFields α) (used : List String) :
    List (ValResult α (α × α)) → XAcc α → ValResult α Unit × XAcc α
  | [], acc => (.ok (), acc)
  | .error e :: _, acc => (.error e, acc)
  | .ok (k, v) :: rest, acc =>
    let r := m.extraStep used k v acc
    match r.1 with
    | .ok () => m.extraLoop used rest r.2
    | .error e => (.error e, r.2)

/-- The conversion of `dict_type` errors, `src/validators/model_fields.rs:137-157`. -/
def toModelType (e : ValError α) : ValError α :=
  match e with
  | .lineErrors ls => .lineErrors (ls.map fun l =>
      if l.type = .other "dict_type" then { l with type := .other "model_type" } else l)
  | e => e

/-- The end of `validate`, `src/validators/model_fields.rs:365-378`, from the results of the two
loops; `extra` is `model_extra_dict_op`. -/
def ModelFields.finish (m : ModelFields α) (dict : Dict α) (extra : Option (Dict α))
    (errs : List (LineError α)) (fieldsSet : List String) (count : Nat) (st : VState α) :
    ValResult α (ModelOut α) × VState α :=
  if errs.isEmpty then
    (.ok ⟨dict, if m.extra = .allow ∧ extra.isNone then some [] else extra, fieldsSet⟩,
      st.addFieldsSet count)
  else (.error (.lineErrors errs), st)

/-- The part of `validate` after the loop over fields, `src/validators/model_fields.rs:249-378`. -/
def ModelFields.afterFields (m : ModelFields α) (view : DictView α)
    (r : ValResult α Unit × FAcc α) : ValResult α (ModelOut α) × VState α :=
  match r.1 with
  | .error e => (.error e, r.2.st)
  | .ok () =>
    let acc := r.2
    if m.extra = .ignore ∨ view.isPyGetAttr = true then
      m.finish acc.dict none acc.errs acc.fieldsSet acc.count acc.st
    else
      match view.entries with
      | .error e => (.error e, acc.st)
      | .ok entries =>
        let x := m.extraLoop acc.used entries ⟨[], acc.errs, acc.fieldsSet, acc.st⟩
        match x.1 with
        | .error e => (.error e, x.2.st)
        | .ok () =>
          m.finish acc.dict (if m.extra = .allow then some x.2.extra else none) x.2.errs
            x.2.fieldsSet acc.count x.2.st

/-- `ModelFieldsValidator::validate`, `src/validators/model_fields.rs:124-379`. -/
def ModelFields.validate (m : ModelFields α) : Validator α (ModelOut α) := fun input st =>
  let st := { st with allowPartial := .ofBool false }
  match m.asFields (st.strictOr m.strict) (st.extra.fromAttributes.getD m.fromAttributes) input with
  | .error e => (.error (toModelType e), st)
  | .ok view =>
    m.afterFields view (m.fieldLoop view input (st.validateByAliasOr m.byAlias)
      (st.validateByNameOr m.byName) m.fields ⟨[], [], [], 0, [], st⟩)

/-! ### Assignment -/

/-- `prepare_result`, `src/validators/model_fields.rs:396-406`: on success the dict updated with
the output. -/
def prepareResult (dict : Dict α) (name : String) (r : ValResult α α) : ValResult α (Dict α) :=
  match r with
  | .ok v => .ok (dict.set name v)
  | .error (.lineErrors ls) => .error (.lineErrors (ls.map (·.withOuterLocation (.s name))))
  | .error e => .error e

/-- The assignment of one attribute, `src/validators/model_fields.rs:408-455`: the updated dict. -/
def ModelFields.assign (m : ModelFields α) (dict : Dict α) (name : String) (value : α)
    (st : VState α) : ValResult α (Dict α) × VState α :=
  let data := dict.del name
  match m.fields.find? (fun f => f.name = name) with
  | some f =>
    if f.frozen then (.error (.newWithLoc .frozenField value (.s f.name)), st)
    else
      let r := rebindExtra (fun x => { x with data := some data, fieldName := some f.name })
        (f.run value) st
      (prepareResult dict name r.1, r.2)
  | none =>
    match m.extra with
    | .allow =>
      match m.extrasV with
      | some v =>
        let r := rebindExtra (fun x => { x with data := some data }) (v value) st
        (prepareResult dict name r.1, r.2)
      | none => (.ok (dict.set name value), st)
    | _ => (.error (.newWithLoc (.noSuchAttribute name) value (.s name)), st)

/-- The separation of fields from extras, `src/validators/model_fields.rs:459-470`: each field
present is moved from `newData` to `nonExtra`. -/
def splitExtra : List (Field α) → (newData nonExtra : Dict α) → Dict α × Dict α
  | [], newData, nonExtra => (newData, nonExtra)
  | f :: fs, newData, nonExtra =>
    match newData.get f.name with
    | none => splitExtra fs newData nonExtra
    | some v => splitExtra fs (newData.del f.name) (nonExtra.set f.name v)

/-- `ModelFieldsValidator::validate_assignment`, `src/validators/model_fields.rs:381-480`. -/
def ModelFields.validateAssignment (m : ModelFields α) (dict : Dict α) (name : String) (value : α)
    (st : VState α) : ValResult α (ModelOut α) × VState α :=
  let r := m.assign dict name value st
  match r.1 with
  | .error e => (.error e, r.2)
  | .ok newData =>
    match m.extra with
    | .allow =>
      let s := splitExtra m.fields newData []
      (.ok ⟨s.2, some s.1, [name]⟩, r.2)
    | _ => (.ok ⟨newData, none, [name]⟩, r.2)

/-- An instance of a model: its `__dict__`, `__pydantic_extra__` (`none`: Python `None`) and
`__pydantic_fields_set__`; for root models, `__dict__['root']` is the root. -/
structure Instance (α : Type) where
  dict : Dict α
  extra : Option (Dict α)
  fieldsSet : List String
  deriving DecidableEq, Repr

/-- `ModelValidator` as far as assignment is concerned, `src/validators/model.rs:53-65`.  For a
root model `root` is the root validator; otherwise the inner validator is a `model-fields`
validator (function validators in between are not modelled). -/
structure Model (α : Type) where
  fields : ModelFields α
  root : Option (Validator α α)
  frozen : Bool

/-- `set.add` for each name, `src/validators/model.rs:230-235`. -/
def addAll (s : List String) (names : List String) : List String :=
  names.foldl (fun s n => if s.contains n then s else s ++ [n]) s

/-- `ModelValidator::validate_assignment`, `src/validators/model.rs:184-240`.  The instance is
mutated in the code: here the new instance is returned beside the result, so that a failing
assignment shows what it left behind. -/
def Model.validateAssignment (m : Model α) (inst : Instance α) (name : String) (value : α)
    (st : VState α) : ValResult α Unit × Instance α × VState α :=
  if m.frozen then (.error (.new .frozenInstance value), inst, st)
  else
    match m.root with
    | some root =>
      if name ≠ "root" then (.error (.newWithLoc (.noSuchAttribute name) value (.s name)), inst, st)
      else
        let r := rebindExtra (fun x => { x with fieldName := some "root" }) (root value) st
        match r.1 with
        | .error e => (.error e, inst, r.2)
        | .ok v => (.ok (), { inst with dict := inst.dict.set "root" v }, r.2)
    | none =>
      let inputDict := match inst.extra with
        | some old => inst.dict.update old
        | none => inst.dict
      let r := m.fields.validateAssignment (inputDict.set name value) name value st
      match r.1 with
      | .error e => (.error e, inst, r.2)
      | .ok out => (.ok (), ⟨out.dict, out.extra, addAll inst.fieldsSet out.fieldsSet⟩, r.2)

/-! ### Typed dicts -/

/-- `TypedDictValidator`, `src/validators/typed_dict.rs:31-41`.  `asDict` is
`Input::validate_dict`; `build` turns the output dict into a value. -/
structure TypedDict (α : Type) where
  fields : List (Field α)
  extra : ExtraBehavior
  extrasV : Option (Validator α α)
  strict : Bool
  locByAlias : Bool
  byAlias : Option Bool
  byName : Option Bool
  asDict : (strict : Bool) → α → ValResult α (DictView α)
  keyOps : KeyOps α
  build : Dict α → α

/-- One iteration of the loop over fields, `src/validators/typed_dict.rs:188-270`; `lastKey` is
`partial_last_key` and `saved` the partial mode on entry. -/
def TypedDict.fieldStep (t : TypedDict α) (view : DictView α) (input : α) (byAlias byName : Bool)
    (lastKey : Option LocItem) (saved : PartialMode) (f : Field α) (acc : FAcc α) :
    ValResult α Unit × FAcc α :=
  match f.keys.select byAlias byName with
  | .error e => (.error (.internal e), acc)
  | .ok key =>
    match view.get key with
    | .error (.lineErrors ls) =>
      if lastKey = some (.s f.name) then
        (.ok (), { acc with errs := acc.errs ++ ls.map (·.withOuterLocation (.s f.name)) })
      else (.ok (), acc)
    | .error e => (.error e, acc)
    | .ok (some (path, value)) =>
      let isLast : Bool := decide (lastKey = some (.s path.first))
      let st : VState α := { acc.st with allowPartial := if isLast then saved else .off }
      let r := rebindExtra (fun x => { x with data := some acc.dict, fieldName := some f.name })
        (f.run value) st
      let acc := { acc with used := acc.used ++ [path.first], st := r.2 }
      match r.1 with
      | .ok v => (.ok (), { acc with dict := acc.dict.set f.name v, count := acc.count + 1 })
      | .error .omitted => (.ok (), acc)
      | .error (.lineErrors ls) =>
        if !isLast || f.required then
          (.ok (), { acc with errs := acc.errs ++ ls.map (path.applyErrorLoc · t.locByAlias f.name) })
        else (.ok (), acc)
      | .error e => (.error e, acc)
    | .ok none =>
      let r := rebindExtra (fun x => { x with data := some acc.dict })
        (f.dflt (some (.s f.name))) acc.st
      let acc := { acc with st := r.2 }
      match r.1 with
      | .ok (some v) => (.ok (), { acc with dict := acc.dict.set f.name v })
      | .ok none =>
        if f.required then
          (.ok (), { acc with
            errs := acc.errs ++ (key.error .missing input t.locByAlias f.name).toList })
        else (.ok (), acc)
      | .error .omitted => (.ok (), acc)
      | .error (.lineErrors ls) => (.ok (), { acc with errs := acc.errs ++ ls })
      | .error e => (.error e, acc)

/-- The loop over fields, `src/validators/typed_dict.rs:183-273`. -/
def TypedDict.fieldLoop (t : TypedDict α) (view : DictView α) (input : α) (byAlias byName : Bool)
    (lastKey : Option LocItem) (saved : PartialMode) :
    List (Field α) → FAcc α → ValResult α Unit × FAcc α
  | [], acc => (.ok (), acc)
  | f :: fs, acc =>
    let r := t.fieldStep view input byAlias byName lastKey saved f acc
    match r.1 with
    | .ok () => t.fieldLoop view input byAlias byName lastKey saved fs r.2
    | .error e => (.error e, r.2)

/-- The variables of the loop over extra items: the output dict, errors and state. -/
structure TAcc (α : Type) where
  dict : Dict α
  errs : List (LineError α)
  st : VState α

/-- One iteration of the loop over input items, `src/validators/typed_dict.rs:296-355`. -/
def TypedDict.extraStep (t : TypedDict α) (used : List String) (lastKey : Option LocItem)
    (saved : PartialMode) (rawKey value : α) (acc : TAcc α) : ValResult α Unit × TAcc α :=
  match t.keyOps.str rawKey with
  | .error (.lineErrors ls) =>
    (.ok (), { acc with errs := acc.errs ++ ls.map fun e =>
      { e.withOuterLocation (t.keyOps.loc rawKey) with type := .invalidKey } })
  | .error e => (.error e, acc)
  | .ok key =>
    if used.contains key then (.ok (), acc)
    else
      match t.extra with
      | .forbid =>
        (.ok (), { acc with errs := acc.errs ++ [.newWithLoc .extraForbidden value (t.keyOps.loc rawKey)] })
      | .ignore => (.ok (), acc)
      | .allow =>
        match t.extrasV with
        | some v =>
          let isLast : Bool := decide (lastKey = some (t.keyOps.loc rawKey))
          let st : VState α := { acc.st with allowPartial := if isLast then saved else .off }
          let r := v value st
          let acc := { acc with st := r.2 }
          match r.1 with
          | .ok w => (.ok (), { acc with dict := acc.dict.set key w })
          | .error (.lineErrors ls) =>
            if !isLast then
              (.ok (), { acc with errs := acc.errs ++ ls.map (·.withOuterLocation (t.keyOps.loc rawKey)) })
            else (.ok (), acc)
          | .error e => (.error e, acc)
        | none => (.ok (), { acc with dict := acc.dict.set key value })

/-- The loop over input items, `src/validators/typed_dict.rs:294-359`. -/
def TypedDict.extraLoop (t : TypedDict α) (used : List String) (lastKey : Option LocItem)
    (saved : PartialMode) : List (ValResult α (α × α)) → TAcc α → ValResult α Unit × TAcc α
  | [], acc => (.ok (), acc)
  | .error e :: _, acc => (.error e, acc)
  | .ok (k, v) :: rest, acc =>
    let r := t.extraStep used lastKey saved k v acc
    match r.1 with
    | .ok () => t.extraLoop used lastKey saved rest r.2
    | .error e => (.error e, r.2)

/-- The end of `validate`, `src/validators/typed_dict.rs:375-379`. -/
def TypedDict.finish (t : TypedDict α) (dict : Dict α) (errs : List (LineError α))
    (st : VState α) : ValResult α α × VState α :=
  if errs.isEmpty then (.ok (t.build dict), st) else (.error (.lineErrors errs), st)

/-- The part of `validate` after the loop over fields, `src/validators/typed_dict.rs:272-379`. -/
def TypedDict.afterFields (t : TypedDict α) (view : DictView α) (lastKey : Option LocItem)
    (saved : PartialMode) (r : ValResult α Unit × FAcc α) : ValResult α α × VState α :=
  match r.1 with
  | .error e => (.error e, r.2.st)
  | .ok () =>
    let acc := r.2
    let st := acc.st.addFieldsSet acc.count
    if t.extra = .ignore ∨ view.isPyGetAttr = true then t.finish acc.dict acc.errs st
    else
      match view.entries with
      | .error e => (.error e, st)
      | .ok entries =>
        let x := t.extraLoop acc.used lastKey saved entries ⟨acc.dict, acc.errs, st⟩
        match x.1 with
        | .error e => (.error e, x.2.st)
        | .ok () => t.finish x.2.dict x.2.errs x.2.st

/-- `TypedDictValidator::validate`, `src/validators/typed_dict.rs:152-380`. -/
def TypedDict.validate (t : TypedDict α) : Validator α α := fun input st =>
  match t.asDict (st.strictOr t.strict) input with
  | .error e => (.error e, st)
  | .ok view =>
    let lastKey := if st.allowPartial.isActive then view.lastKey else none
    let saved := st.allowPartial
    t.afterFields view lastKey saved (t.fieldLoop view input (st.validateByAliasOr t.byAlias)
      (st.validateByNameOr t.byName) lastKey saved t.fields ⟨[], [], [], 0, [], st⟩)

end PC.Fields
