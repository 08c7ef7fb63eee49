import Verif.Model.Fields
import Verif.Model.Dataclass

/-
Model of `src/validators/model.rs`: validation of model instances, construction and `__init__`
(assignment is in `Fields.lean`).
-/

namespace PC.Cls
open PC.Fields PC.Dc
variable {α : Type}

/-- What the code asks of the input, `src/validators/model.rs:135-151`: whether it is a Python
instance of the class (exactly, or of a subclass), or of the class's generic origin only, and what
it is made of. -/
inductive ModelSource (α : Type) where
  | exact (i : Instance α)
  | subclass (i : Instance α)
  | genericOrigin (i : Instance α)
  | other

/-- The instance that the input is. -/
def ModelSource.inst? : ModelSource α → Option (Instance α)
  | .exact i => some i
  | .subclass i => some i
  | .genericOrigin i => some i
  | .other => none

/-- `ModelValidator`, `src/validators/model.rs:53-65`.  `inner` is the validator of a class that is
no root model, `root` that of a root model (`root_model`).

* `customInit` is `some f` for a class with `custom_init`; `f input` is the result of calling the
  class with `input.as_kwargs()`, errors converted by `convert_err`, and `none` if the input has no
  keyword arguments;
* `postInit` is `post_init` if there is one: given the input (for the error) and the instance, what
  the method makes of the instance, and the exception it raises, converted;
* `mkDict` makes the object of a dict, `isUndefined` recognises `PydanticUndefined`. -/
structure ModelV (α : Type) where
  inner : Validator α (ModelOut α)
  root : Option (Validator α α)
  revalidate : Revalidate
  customInit : Option (α → Option (ValResult α α))
  postInit : Option (α → Instance α → ValResult α Unit × Instance α)
  mkDict : Dict α → α
  isUndefined : α → Bool

/-- What a model validator returns: the input itself, a new instance, or what the call of the class
returned. -/
inductive Made (α : Type) where
  | same
  | fresh (i : Instance α)
  | called (x : α)
  deriving DecidableEq, Repr

/-- `call_post_init`, `src/validators/model.rs:331-344`: the result, and what became of the
instance. -/
def ModelV.callPostInit (m : ModelV α) (input : α) (i : Instance α) :
    ValResult α Unit × Instance α :=
  match m.postInit with
  | none => (.ok (), i)
  | some f => f input i

/-- The validation of the inner data, `src/validators/model.rs:310-327` and `:265-281`: what the
attributes of the instance become.  `existing` is `existing_fields_set`; a root model does not look
at it. -/
def ModelV.attrs (m : ModelV α) (old : Instance α) (input : α) (existing : Option (List String))
    (st : VState α) : ValResult α (Instance α) × VState α :=
  match m.root with
  | some root =>
    let r := rebindExtra (fun x => { x with fieldName := some "root" }) (root input) st
    match r.1 with
    | .error e => (.error e, r.2)
    | .ok v =>
      (.ok { old with dict := old.dict.set "root" v,
                      fieldsSet := if m.isUndefined input then [] else ["root"] }, r.2)
  | none =>
    let r := m.inner input st
    match r.1 with
    | .error e => (.error e, r.2)
    | .ok out => (.ok ⟨out.dict, out.extra, existing.getD out.fieldsSet⟩, r.2)

/-- `validate_construct`, `src/validators/model.rs:285-329`. -/
def ModelV.construct (m : ModelV α) (input : α) (existing : Option (List String)) (st : VState α) :
    ValResult α (Made α) × VState α :=
  match m.customInit.bind fun f => f input with
  | some (.error e) => (.error e, st)
  | some (.ok x) => (.ok (.called x), st)
  | none =>
    let r := m.attrs ⟨[], none, []⟩ input existing st
    match r.1 with
    | .error e => (.error e, r.2)
    | .ok i =>
      let p := m.callPostInit input i
      match p.1 with
      | .error e => (.error e, r.2)
      | .ok () => (.ok (.fresh p.2), r.2)

/-- All attributes of an instance in one dict, `src/validators/model.rs:161-170`: a copy of `__dict__`
updated with the extra items, if there are any. -/
def attributes (i : Instance α) : Dict α :=
  match i.extra with
  | none => i.dict
  | some x => i.dict.update x

/-- The data of an instance that is revalidated, `src/validators/model.rs:156-172`: the root, or
`__dict__` with the extra items. -/
def ModelV.data (m : ModelV α) (i : Instance α) : ValResult α α :=
  match m.root with
  | some _ =>
    match i.dict.get "root" with
    | some v => .ok v
    | none => .error (.internal ⟨"AttributeError"⟩)
  | none => .ok (m.mkDict (attributes i))

/-- The revalidation of an instance, `src/validators/model.rs:154-173`. -/
def ModelV.revalidateInstance (m : ModelV α) (i : Instance α) (st : VState α) :
    ValResult α (Made α) × VState α :=
  match m.data i with
  | .error e => (.error e, st)
  | .ok data => m.construct data (some i.fieldsSet) st

/-- `ModelValidator::validate` without `self_instance`, `src/validators/model.rs:118-182`. -/
def ModelV.validate (m : ModelV α) (source : ModelSource α) (input : α) (st : VState α) :
    ValResult α (Made α) × VState α :=
  match source with
  | .exact i => if m.revalidate.should true then m.revalidateInstance i st else (.ok .same, st)
  | .subclass i => if m.revalidate.should false then m.revalidateInstance i st else (.ok .same, st)
  | .genericOrigin i => m.revalidateInstance i st
  | .other => m.construct input none (st.floorExactness .strict)

/-- `validate_init`, `src/validators/model.rs:250-283`: what becomes of `self_instance`. -/
def ModelV.validateInit (m : ModelV α) (inst : Instance α) (input : α) (st : VState α) :
    ValResult α Unit × Instance α × VState α :=
  let r := m.attrs inst input none st
  match r.1 with
  | .error e => (.error e, inst, r.2)
  | .ok i =>
    let p := m.callPostInit input i
    (p.1, p.2, r.2)

end PC.Cls
