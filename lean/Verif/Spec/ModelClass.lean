import Verif.Model.ModelClass
import Verif.Spec.Fields

/-
What is expected of model instances as inputs, and of the construction of instances.
-/

namespace PC.Cls
open PC.Fields PC.Dc
variable {α : Type}

/-- The inputs that are returned as they are: instances of the class, unless instances, or
instances of subclasses, are to be revalidated. -/
def Kept (r : Revalidate) : ModelSource α → Prop
  | .exact _ => r ≠ .always
  | .subclass _ => r = .never
  | .genericOrigin _ => False
  | .other => False

/-- The input is an instance that is to be revalidated. -/
def Revalidated (r : Revalidate) : ModelSource α → Instance α → Prop
  | .exact i, j => i = j ∧ r = .always
  | .subclass i, j => i = j ∧ r ≠ .never
  | .genericOrigin i, j => i = j
  | .other, _ => False

/-- `d` is the dict of all attributes of `i`, fields and extra items; an extra item hides a field of
the same name. -/
def Attributes (i : Instance α) (d : Dict α) : Prop :=
  ∀ k, d.get k = (i.extra.bind fun x => (dictOf x).get k).or (i.dict.get k)

/-- `post_init`, if there is one, is called once, on `before`, succeeds and leaves `after`. -/
def ModelV.PostInit (m : ModelV α) (input : α) (before after : Instance α) : Prop :=
  match m.postInit with
  | none => after = before
  | some f => f input before = (.ok (), after)

/-- Neither `__init__` is overridden nor is the class a root model. -/
def ModelV.Plain (m : ModelV α) : Prop := m.customInit = none ∧ m.root = none

/-- Where `st.floorExactness .strict` is used: not an exact match any more. -/
def NotExact (st : VState α) : Prop := st.exactness ≠ some .exact

end PC.Cls
