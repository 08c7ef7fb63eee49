import Verif.Model.Core

/-
Model of `validate_strings`: `src/input/input_string.rs` (the input type `StringMapping`), the entry
point in `src/validators/mod.rs`, and of validators as they are written, that is generically over
the `Input` trait, instantiated both for Python objects and for `StringMapping`.

Every error here is a list of line errors.
-/

namespace PC.StringMode

/-- A Python object as the modelled code looks at it: an instance of `str`, of `dict` (its items in
order), `None`, an instance of `list`, or anything else.  Texts are valid Unicode. -/
inductive PyT where
  | str (s : String)
  | dict (items : List (PyT × PyT))
  | none
  | list (items : List PyT)
  | other (id : Nat)

/-- The errors of a validation (`ValError::LineErrors`). -/
abbrev Errs := List (LineError PyT)

/-- The scalar schemas modelled; the others differ between the modes (complex, UUID, URL, literal,
enum) or have nothing to do with text. -/
inductive Kind where
  | str | bytes | bool | int | float | decimal | date | time | datetime | timedelta
  deriving DecidableEq, Repr

/-- What is not part of this model: `conv` reads a text (`str_as_bool`, `str_as_int`,
`str_as_float`, `create_decimal`, `bytes_as_date`, ... of `src/input/shared.rs`,
`src/input/datetime.rs`; one function for the Python and the string inputs) and checks the
constraints of the schema; `pyOther` is what a Python object that is no `str` and no `dict` gives;
`dateOfDatetime` and `datetimeOfDate` convert; `keyRepr` is `safe_repr` of a key that is no text. -/
structure Env (V : Type) where
  conv : Kind → String → Except ErrType V
  pyOther : Kind → Bool → PyT → Except ErrType V
  dateOfDatetime : V → Except ErrType V
  datetimeOfDate : V → V
  keyRepr : PyT → LocItem

/-- The error of an input of the wrong type: `string_type`, `int_type`, ...
`src/input/input_string.rs:104-252` (the arms `Self::Mapping(_)`); `src/input/input_python.rs:149-627`
(the last line of each function), where a strict decimal has its own (`is_instance_of`, lines 354-364). -/
def typeErr : Kind → ErrType
  | .str => .other "string_type"
  | .bytes => .other "bytes_type"
  | .bool => .other "bool_type"
  | .int => .other "int_type"
  | .float => .other "float_type"
  | .decimal => .other "decimal_type"
  | .date => .other "date_type"
  | .time => .other "time_type"
  | .datetime => .other "datetime_type"
  | .timedelta => .other "time_delta_type"

/-- `src/input/input_string.rs:26-29` (`StringMapping`). -/
inductive StringMapping where
  | string (s : String)
  | mapping (items : List (PyT × PyT))

/-- `src/input/input_string.rs:32-40` (`StringMapping::new_key`). -/
def newKey : PyT → Except Errs StringMapping
  | .str s => .ok (.string s)
  | x => .error [LineError.new (.other "string_type") x]

/-- `src/input/input_string.rs:42-53` (`StringMapping::new_value`). -/
def newValue : PyT → Except Errs StringMapping
  | .str s => .ok (.string s)
  | .dict items => .ok (.mapping items)
  | x => .error [LineError.new (.other "string_type") x]

/-- `src/input/input_string.rs:71-76` (`as_error_value`) and 66-69 (`py_converter`): the Python
object the value was made of. -/
def StringMapping.toPy : StringMapping → PyT
  | .string s => .str s
  | .mapping items => .dict items

/-- The methods of the trait `Input` the modelled validators use.
`src/input/input_abstract.rs:58-182`.  `list` gives the items. -/
structure Ops (I V : Type) where
  scalar : Kind → Bool → I → Except ErrType V
  isNone : I → Bool
  dict : Bool → I → Except ErrType (List (PyT × PyT))
  items : List (PyT × PyT) → List (Except Errs (I × I))
  getItem : List (PyT × PyT) → String → Except Errs (Option I)
  list : Bool → I → Except ErrType (List I)
  strictStr : I → Except Errs String
  loc : I → LocItem
  toPy : I → PyT

/-- The key of an item equals the text. -/
def isKey (name : String) : PyT → Bool
  | .str s => s == name
  | _ => false

/-- `dict.get(key)` for a key that is a text: `src/lookup_key.rs:90-131` (`py_get_dict_item`) for a
simple key. -/
def dictGet (items : List (PyT × PyT)) (name : String) : Option PyT :=
  (items.find? fun kv => isKey name kv.1).map (·.2)

/-- `impl Input for StringMapping`, `src/input/input_string.rs:65-253`, and
`impl ValidatedDict for StringMappingDict`, lines 303-325; `getItem` is
`src/lookup_key.rs:133-143` (`py_get_string_mapping_item`) for a simple key. `strict` is not looked
at.  `strictStr` is `validate_str(true, false)` (lines 104-113); `loc` is lines 56-63. -/
def stringOps {V : Type} (E : Env V) : Ops StringMapping V where
  scalar k _ x := match x with
    | .string s => E.conv k s
    | .mapping _ => .error (typeErr k)
  isNone _ := false
  dict _ x := match x with
    | .string _ => .error (.other "dict_type")
    | .mapping items => .ok items
  items d := d.map fun kv => do return ((← newKey kv.1), (← newValue kv.2))
  getItem d name := match dictGet d name with
    | some x => do return some (← newValue x)
    | Option.none => .ok Option.none
  list _ _ := .error (.other "list_type")
  strictStr x := match x with
    | .string s => .ok s
    | .mapping items => .error [LineError.new (.other "string_type") (.dict items)]
  loc x := match x with
    | .string s => .s s
    | .mapping items => E.keyRepr (.dict items)
  toPy := StringMapping.toPy

/-- `impl Input for Bound<PyAny>`, `src/input/input_python.rs`: scalars (149-627), `is_none` (lines
87-89), dicts (374-390), lists (431-441 with 891-916), and the iteration over the items of a dict.
A `str` is a text for every lax schema and for a `str` schema; a `dict` is of no scalar type.
Mappings that are no `dict`, and iterables other than lists, are not modelled. -/
def pyOps {V : Type} (E : Env V) : Ops PyT V where
  scalar k strict x := match x with
    | .str s => if strict && k != .str then
        .error (if k = .decimal then .other "is_instance_of" else typeErr k)
      else E.conv k s
    | .dict _ => .error (if strict && k == .decimal then .other "is_instance_of" else typeErr k)
    | x => E.pyOther k strict x
  isNone x := match x with
    | .none => true
    | _ => false
  dict _ x := match x with
    | .dict items => .ok items
    | _ => .error (.other "dict_type")
  items d := d.map fun kv => .ok kv
  getItem d name := .ok (dictGet d name)
  list _ x := match x with
    | .list items => .ok items
    | _ => .error (.other "list_type")
  strictStr x := match x with
    | .str s => .ok s
    | x => .error [LineError.new (.other "string_type") x]
  loc x := match x with
    | .str s => .s s
    | x => E.keyRepr x
  toPy x := x

/-- What a model does with keys that are no field.  `src/validators/model_fields.rs:299-342`; the
extras have no validators here. -/
inductive Extra where
  | ignore | forbid | allow
  deriving DecidableEq, Repr

/-- A validated value.  A `dict` is the sequence of the `set_item` calls that build it. -/
inductive Out (V : Type) where
  | val (v : V)
  | none
  | dict (items : List (Out V × Out V))
  | model (fields : List (String × Out V)) (extras : List (String × PyT))
  | list (items : List (Out V))

mutual
/-- The schemas modelled; `strict` is the strictness given in a scalar schema.  Containers have no
length constraints, lists no `fail_fast`, fields no alias, partial mode is off. -/
inductive Schema (V : Type) where
  | scalar (k : Kind) (strict : Bool)
  | nullable (s : Schema V)
  | dict (key value : Schema V)
  | list (item : Schema V)
  | model (extra : Extra) (fields : Fields V)

/-- The fields of a model with their defaults (not validated ones). -/
inductive Fields (V : Type) where
  | nil
  | cons (name : String) (default : Option V) (s : Schema V) (rest : Fields V)
end

/-- The result of a validation. -/
abbrev Res (V : Type) := Except Errs (Out V)

section
variable {I V : Type}

/-- The error `datetime_parsing` becomes `date_from_datetime_parsing` and the error `date_parsing`
becomes `datetime_from_date_parsing`; any other is dropped.  `src/validators/date.rs:116-131`;
`src/validators/datetime.rs:148-163`. -/
def fromOther (k : Kind) (t : ErrType) : Option ErrType :=
  match k with
  | .date => if t = .other "datetime_parsing" then some (.other "date_from_datetime_parsing") else Option.none
  | .datetime => if t = .other "date_parsing" then some (.other "datetime_from_date_parsing") else Option.none
  | _ => Option.none

/-- The `validate` of the scalar validators: `src/validators/int.rs:64-73`, `src/validators/bool.rs:33-44`
and so on call the method of the input; `src/validators/date.rs:48-57` and 112-149 and
`src/validators/datetime.rs:68-77` and 144-181 then try the other type if not strict. -/
def runScalar (O : Ops I V) (E : Env V) (k : Kind) (strict : Bool) (x : I) : Except ErrType V :=
  match O.scalar k strict x with
  | .ok v => .ok v
  | .error t =>
    if strict then .error t
    else match k with
      | .date => match O.scalar .datetime false x with
        | .ok v => E.dateOfDatetime v
        | .error t' => match fromOther .date t' with
          | some t'' => .error t''
          | Option.none => .error t
      | .datetime => match O.scalar .date false x with
        | .ok v => .ok (E.datetimeOfDate v)
        | .error t' => match fromOther .datetime t' with
          | some t'' => .error t''
          | Option.none => .error t
      | _ => .error t

/-- The loop of `src/validators/dict.rs:109-156` (`ValidateToDict::consume_iterator`): a failing item
of the iterator ends it at once (line 116, `item_result?`). -/
def dictLoop (O : Ops I V) (kf vf : I → Res V) :
    List (Except Errs (I × I)) → Errs → List (Out V × Out V) → Res V
  | [], errors, out => if errors.isEmpty then .ok (.dict out) else .error errors
  | .error es :: _, _, _ => .error es
  | .ok (key, value) :: rest, errors, out =>
    match kf key with
    | .ok k => match vf value with
      | .ok v => dictLoop O kf vf rest errors (out ++ [(k, v)])
      | .error es => dictLoop O kf vf rest (errors ++ es.map (·.withOuterLocation (O.loc key))) out
    | .error kes =>
      let errors := errors ++
        kes.map fun e => (e.withOuterLocation (.s "[key]")).withOuterLocation (O.loc key)
      match vf value with
      | .ok _ => dictLoop O kf vf rest errors out
      | .error es => dictLoop O kf vf rest (errors ++ es.map (·.withOuterLocation (O.loc key))) out

/-- The loop over the items of a list, `src/input/return_enums.rs:122-165`
(`validate_iter_to_vec`); every item is validated, the errors get their index. -/
def listLoop (f : I → Res V) : List I → Nat → Errs → List (Out V) → Res V
  | [], _, errors, out => if errors.isEmpty then .ok (.list out) else .error errors
  | x :: rest, i, errors, out =>
    match f x with
    | .ok v => listLoop f rest (i + 1) errors (out ++ [v])
    | .error es => listLoop f rest (i + 1) (errors ++ es.map (·.withOuterLocation (.i i))) out

/-- The loop over the extra items, `src/validators/model_fields.rs:268-346`
(`ValidateToModelExtra::consume_iterator`): a failing item of the iterator ends the whole validation
(line 274 with the `??` of line 358). -/
def extraLoop (O : Ops I V) (extra : Extra) (used : List String) :
    List (Except Errs (I × I)) → Errs → List (String × PyT) → Except Errs (Errs × List (String × PyT))
  | [], errors, out => .ok (errors, out)
  | .error es :: _, _, _ => .error es
  | .ok (key, value) :: rest, errors, out =>
    match O.strictStr key with
    | .error es => extraLoop O extra used rest (errors ++ es.map fun e =>
        { e.withOuterLocation (O.loc key) with type := .invalidKey }) out
    | .ok name =>
      if used.contains name then extraLoop O extra used rest errors out
      else match extra with
        | .forbid => extraLoop O extra used rest
            (errors ++ [LineError.newWithLoc .extraForbidden (O.toPy value) (O.loc key)]) out
        | .ignore => extraLoop O extra used rest errors out
        | .allow => extraLoop O extra used rest errors (out ++ [(name, O.toPy value)])

/-- What the loop over the fields has gathered: errors, values and the keys used. -/
structure Acc (V : Type) where
  errors : Errs
  values : List (String × Out V)
  used : List String

/-- What one field of a model contributes, `src/validators/model_fields.rs:180-247`; `f` is its
validator. -/
def fieldStep (O : Ops I V) (f : I → Res V) (input : I) (d : List (PyT × PyT)) (name : String)
    (dflt : Option V) : Acc V :=
  match O.getItem d name with
  | .error es => ⟨es.map (·.withOuterLocation (.s name)), [], []⟩
  | .ok (some x) => match f x with
    | .ok v => ⟨[], [(name, v)], [name]⟩
    | .error es => ⟨es.map (·.withOuterLocation (.s name)), [], [name]⟩
  | .ok Option.none => match dflt with
    | some v => ⟨[], [(name, .val v)], []⟩
    | Option.none => ⟨[LineError.newWithLoc .missing (O.toPy input) (.s name)], [], []⟩

mutual
/-- `Validator::validate` for each schema: scalars; `src/validators/nullable.rs:36-46`;
`src/validators/dict.rs:68-87`; `src/validators/list.rs:122-160`;
`src/validators/model_fields.rs:123-379`, where `dict_type` becomes `model_type` (lines 136-154).
`strict` is the argument of the call, `state.strict_or` picks it if given. -/
def run (O : Ops I V) (E : Env V) (strict : Option Bool) : Schema V → I → Res V
  | .scalar k own, x => match runScalar O E k (strict.getD own) x with
    | .ok v => .ok (.val v)
    | .error t => .error [LineError.new t (O.toPy x)]
  | .nullable s, x => if O.isNone x then .ok .none else run O E strict s x
  | .dict key value, x => match O.dict (strict.getD false) x with
    | .ok d => dictLoop O (run O E strict key) (run O E strict value) (O.items d) [] []
    | .error t => .error [LineError.new t (O.toPy x)]
  | .list item, x => match O.list (strict.getD false) x with
    | .ok xs => listLoop (run O E strict item) xs 0 [] []
    | .error t => .error [LineError.new t (O.toPy x)]
  | .model extra fields, x => match O.dict (strict.getD false) x with
    | .error t => .error [LineError.new (if t = .other "dict_type" then .other "model_type" else t) (O.toPy x)]
    | .ok d =>
      let a := runFields O E strict fields x d
      if extra = .ignore then
        if a.errors.isEmpty then .ok (.model a.values []) else .error a.errors
      else match extraLoop O extra a.used (O.items d) a.errors [] with
        | .error es => .error es
        | .ok (errors, extras) => if errors.isEmpty then .ok (.model a.values extras) else .error errors
termination_by structural s => s

/-- The loop over the fields, `src/validators/model_fields.rs:180-247`. -/
def runFields (O : Ops I V) (E : Env V) (strict : Option Bool) :
    Fields V → I → List (PyT × PyT) → Acc V
  | .nil, _, _ => ⟨[], [], []⟩
  | .cons name dflt s rest, x, d =>
    let a := fieldStep O (run O E strict s) x d name dflt
    let b := runFields O E strict rest x d
    ⟨a.errors ++ b.errors, a.values ++ b.values, a.used ++ b.used⟩
termination_by structural fs => fs
end

end

/-- `src/validators/mod.rs:262-293` (`SchemaValidator::validate_strings`). -/
def validateStrings {V : Type} (E : Env V) (s : Schema V) (strict : Option Bool) (input : PyT) : Res V :=
  match newValue input with
  | .error es => .error es
  | .ok x => run (stringOps E) E strict s x

/-- `src/validators/mod.rs:167-195` (`SchemaValidator::validate_python`). -/
def validatePython {V : Type} (E : Env V) (s : Schema V) (strict : Option Bool) (input : PyT) : Res V :=
  run (pyOps E) E strict s input

end PC.StringMode
