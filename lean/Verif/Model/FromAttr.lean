import Verif.Model.Fields

/-
Model of what a model is read from: `validate_model_fields` of Python objects, `src/input/input_python.rs`.
-/

namespace PC.FromAttr
open PC PC.Fields PC.Lookup

variable {α : Type}

/-- What is asked of a Python object, `src/input/input_python.rs:399-411, 685-694`: whether it is a `dict` or a `Mapping`,
the text `__module__` of its class (`none`: there is none, or it is not a text), and the two parts if it is a pair of
anything and a `dict`. -/
structure Kinds (α : Type) where
  isDict : α → Bool
  isMapping : α → Bool
  module : α → Option String
  pair : α → Option (α × α)

/-- `GenericPyMapping`, `src/input/input_python.rs:815-820`. -/
inductive Reading (α : Type) where
  | dict (d : α)
  | mapping (m : α)
  | getAttr (obj : α) (kwargs : Option α)
  deriving DecidableEq

/-- `from_attributes_applicable`, `src/input/input_python.rs:684-699`. -/
def applicable (K : Kinds α) (obj : α) : Bool :=
  match K.module obj with
  | none => false
  | some m => !(m = "builtins" || m = "datetime" || m = "collections")

/-- `strict_dict`, `lax_dict` and `validate_dict`, `src/input/input_python.rs:372-390`. -/
def validateDict (K : Kinds α) (strict : Bool) (input : α) : ValResult α (Reading α) :=
  if K.isDict input then .ok (.dict input)
  else if strict then .error (.new (.other "dict_type") input)
  else if K.isMapping input then .ok (.mapping input)
  else .error (.new (.other "dict_type") input)

/-- The last part of `validate_model_fields`, `src/input/input_python.rs:407-418`. -/
def byAttributes (K : Kinds α) (input : α) : ValResult α (Reading α) :=
  if applicable K input then .ok (.getAttr input none)
  else
    match K.pair input with
    | some (obj, kwargs) =>
      if applicable K obj then .ok (.getAttr obj (some kwargs))
      else .error (.new (.other "model_attributes_type") input)
    | none => .error (.new (.other "model_attributes_type") input)

/-- `validate_model_fields`, `src/input/input_python.rs:392-424`. -/
def readFields (K : Kinds α) (strict fromAttributes : Bool) (input : α) : ValResult α (Reading α) :=
  if fromAttributes then
    if K.isDict input then .ok (.dict input)
    else if !strict && K.isMapping input then .ok (.mapping input)
    else byAttributes K input
  else validateDict K strict input

/-- `ValidatedDict for GenericPyMapping`, `src/input/input_python.rs:822-869`.  The three arms are given; that of
attributes is `py_get_attr`, with the items of the `dict` first. -/
structure Views (α : Type) where
  ops : PyOps α
  dict : α → DictView α
  mapping : α → DictView α
  item : α → String → Except PyErr (Option α)
  attributes : α → ValResult α (List (ValResult α (α × α)))

/-- The view of attributes, `src/input/input_python.rs:840, 845, 856, 868`. -/
def Views.attrView (V : Views α) (obj : α) (kwargs : Option α) : DictView α where
  get key := key.pyGetAttr V.ops obj (kwargs.map V.item)
  isPyGetAttr := true
  entries := V.attributes obj
  lastKey := none

/-- What fields are taken from. -/
def Views.view (V : Views α) : Reading α → DictView α
  | .dict d => { V.dict d with isPyGetAttr := false }
  | .mapping m => { V.mapping m with isPyGetAttr := false }
  | .getAttr obj kwargs => V.attrView obj kwargs

/-- `validate_model_fields` as the fields validator uses it. -/
def asFields (K : Kinds α) (V : Views α) (strict fromAttributes : Bool) (input : α) : ValResult α (DictView α) :=
  match readFields K strict fromAttributes input with
  | .error e => .error e
  | .ok r => .ok (V.view r)

end PC.FromAttr
