import Verif.Model.AssignFunc

/-
C97: assignment to an attribute through validator functions.
-/

namespace PC.AssignFn
open PC.Fields PC.Comb
variable {α σ : Type}

/-- The validator of the class behind the functions. -/
def Outer.body : Outer α σ → σ → VState α → ValResult α Unit × σ × VState α
  | .core a => a
  | .before _ inner => inner.body
  | .after _ inner => inner.body
  | .wrap _ inner => inner.body

/-- A failing assignment leaves the object as it was. -/
def Atomic (a : σ → VState α → ValResult α Unit × σ × VState α) : Prop :=
  ∀ s st e, (a s st).1 = .error e → (a s st).2.1 = s

/-- One after the other, assignments of the class that succeed. -/
inductive Reaches (a : σ → VState α → ValResult α Unit × σ × VState α) : σ → σ → Prop where
  | refl (s : σ) : Reaches a s s
  | step {s t : σ} (st : VState α) : Reaches a s t → (a t st).1 = .ok () → Reaches a s (a t st).2.1

/-- A wrap function that gives its handler no other object than this one. -/
def Prog.Only (obj : Nat) : Prog α σ → Prop
  | .done _ => True
  | .call o _ k => o = obj ∧ ∀ r heap, (k r heap).Only obj

/-- Functions that hand on the object they are given. -/
def Outer.HandsOn : Outer α σ → Prop
  | .core _ => True
  | .before f inner => (∀ e heap obj v, f e heap obj = .ok v → v = obj) ∧ inner.HandsOn
  | .after _ inner => inner.HandsOn
  | .wrap f inner => (∀ e heap obj, (f e heap obj).Only obj) ∧ inner.HandsOn

/-- A wrap function that does not raise. -/
def Prog.Safe : Prog α σ → Prop
  | .done r => ∃ v, r = .ok v
  | .call _ _ k => ∀ r heap, (k r heap).Safe

/-- A wrap function that does not raise once its handler has succeeded. -/
def Prog.Settles : Prog α σ → Prop
  | .done _ => True
  | .call _ _ k => (∀ e heap, (k (.error e) heap).Settles) ∧ ∀ v heap, (k (.ok v) heap).Safe

/-- Functions that do not raise once the class has accepted the value. -/
def Outer.Settles : Outer α σ → Prop
  | .core _ => True
  | .before _ inner => inner.Settles
  | .after f inner => (∀ e heap v, ∃ w, f e heap v = .ok w) ∧ inner.Settles
  | .wrap f inner => (∀ e heap obj, (f e heap obj).Settles) ∧ inner.Settles

/-- The same functions but for what they do when told another field name. -/
inductive SameTold (name : String) : Outer α σ → Outer α σ → Prop where
  | core (a : σ → VState α → ValResult α Unit × σ × VState α) : SameTold name (.core a) (.core a)
  | before {f g : Extra α → Heap σ → Nat → Except (PyExc α) Nat} {i j : Outer α σ} :
    (∀ e, e.fieldName = some name → f e = g e) → SameTold name i j → SameTold name (.before f i) (.before g j)
  | after {f g : Extra α → Heap σ → Nat → Except (PyExc α) Nat} {i j : Outer α σ} :
    (∀ e, e.fieldName = some name → f e = g e) → SameTold name i j → SameTold name (.after f i) (.after g j)
  | wrap {f g : Extra α → Heap σ → Nat → Prog α σ} {i j : Outer α σ} :
    (∀ e, e.fieldName = some name → f e = g e) → SameTold name i j → SameTold name (.wrap f i) (.wrap g j)

/-- No wrap functions, and functions before that hand on the object. -/
def Outer.Straight : Outer α σ → Prop
  | .core _ => True
  | .before f inner => (∀ e heap obj v, f e heap obj = .ok v → v = obj) ∧ inner.Straight
  | .after _ inner => inner.Straight
  | .wrap _ _ => False

/-- The fields behind the functions between a class and its fields. -/
def Inner.body : Inner α → ModelFields α
  | .fields m => m
  | .before _ inner => inner.body
  | .after _ inner => inner.body
  | .wrap _ inner => inner.body

/-- The same functions between a class and its fields but for what they do when told another field name. -/
inductive SameToldIn (name : String) : Inner α → Inner α → Prop where
  | fields (m : ModelFields α) : SameToldIn name (.fields m) (.fields m)
  | before {f g : Extra α → Option (Dict α) → Except (PyExc α) (Option (Dict α))} {i j : Inner α} :
    (∀ e, e.fieldName = some name → f e = g e) → SameToldIn name i j → SameToldIn name (.before f i) (.before g j)
  | after {f g : Extra α → Option (ModelOut α) → Except (PyExc α) (Option (ModelOut α))} {i j : Inner α} :
    (∀ e, e.fieldName = some name → f e = g e) → SameToldIn name i j → SameToldIn name (.after f i) (.after g j)
  | wrap {f g : Extra α → Option (Dict α) → DictProg α} {i j : Inner α} :
    (∀ e, e.fieldName = some name → f e = g e) → SameToldIn name i j → SameToldIn name (.wrap f i) (.wrap g j)

end PC.AssignFn
