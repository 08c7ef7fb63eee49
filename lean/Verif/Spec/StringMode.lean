import Verif.Model.StringMode

/-
Vocabulary for the properties of `validate_strings`.
-/

namespace PC.StringMode

/-- The input is made of texts and of dicts whose keys are texts, all the way down. -/
inductive Stringy : PyT → Prop where
  | str (s : String) : Stringy (.str s)
  | dict (items : List (PyT × PyT)) (keys : ∀ kv ∈ items, ∃ s, kv.1 = .str s)
      (values : ∀ kv ∈ items, Stringy kv.2) : Stringy (.dict items)

/-- A value `validate_strings` can look at: a text or a dict. -/
def StrOrDict (x : PyT) : Prop := (∃ s, x = .str s) ∨ ∃ items, x = .dict items

mutual
/-- The schema has no date and no datetime in it. -/
def NoDates {V : Type} : Schema V → Prop
  | .scalar k _ => k ≠ .date ∧ k ≠ .datetime
  | .nullable s => NoDates s
  | .dict key value => NoDates key ∧ NoDates value
  | .list item => NoDates item
  | .model _ fields => NoDatesFields fields
termination_by structural s => s

/-- No field has a date or datetime in it. -/
def NoDatesFields {V : Type} : Fields V → Prop
  | .nil => True
  | .cons _ _ s rest => NoDates s ∧ NoDatesFields rest
termination_by structural fs => fs
end

mutual
/-- What the schema asks for is there as text: a text for a scalar, a dict for a dict or a model, its
items likewise; nothing will do for a list.  Keys and values a model ignores may be anything. -/
def Textual {V : Type} : Schema V → PyT → Prop
  | .scalar _ _, x => ∃ s, x = .str s
  | .nullable s, x => Textual s x
  | .dict key value, x => ∃ items, x = .dict items ∧
      ∀ kv ∈ items, (∃ s, kv.1 = .str s) ∧ Textual key kv.1 ∧ Textual value kv.2
  | .list _, _ => False
  | .model extra fields, x => ∃ items, x = .dict items ∧ TextualFields fields items ∧
      (extra ≠ .ignore → ∀ kv ∈ items, (∃ s, kv.1 = .str s) ∧ StrOrDict kv.2)
termination_by structural s => s

/-- Every field found in the dict is there as text. -/
def TextualFields {V : Type} : Fields V → List (PyT × PyT) → Prop
  | .nil, _ => True
  | .cons name _ s rest, items =>
      (∀ x, dictGet items name = some x → Textual s x) ∧ TextualFields rest items
termination_by structural fs => fs
end

/-- The field is one of the model's. -/
def HasField {V : Type} (name : String) : Fields V → Prop
  | .nil => False
  | .cons n _ _ rest => n = name ∨ HasField name rest

/-- The error a value of the wrong type gets from each scalar schema. -/
inductive WrongType : Kind → String → Prop where
  | str : WrongType .str "string_type"
  | bytes : WrongType .bytes "bytes_type"
  | bool : WrongType .bool "bool_type"
  | int : WrongType .int "int_type"
  | float : WrongType .float "float_type"
  | decimal : WrongType .decimal "decimal_type"
  | date : WrongType .date "date_type"
  | time : WrongType .time "time_type"
  | datetime : WrongType .datetime "datetime_type"
  | timedelta : WrongType .timedelta "time_delta_type"

/-- The errors of a list: those of every item under its index, in order. -/
def itemErrors {I V : Type} (f : I → Res V) : Nat → List I → Errs
  | _, [] => []
  | i, x :: rest =>
    (match f x with
      | .ok _ => []
      | .error es => es.map (·.withOuterLocation (.i i))) ++ itemErrors f (i + 1) rest

/-- The values of a list that has no errors. -/
def itemValues {I V : Type} (f : I → Res V) (xs : List I) : List (Out V) :=
  xs.filterMap fun x => (f x).toOption

end PC.StringMode
