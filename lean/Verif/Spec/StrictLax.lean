import Verif.Spec.Conforms

/-
When does what a strict run accepts come out the same of a lax run?  What is assumed of inputs and scalar checks, and
the schemas it is claimed of.
-/

namespace PC.Engine
open PC.Comb PC.Coll PC.Union PC.Fields PC.Lookup
variable {α : Type}

/-- Containers: what is read in strict mode is read in the same way in lax mode, the types strict mode asks for being
tried first (`src/input/input_python.rs:356-390,559-610,640-672,707-760`; in JSON and string data there is one way to
read each container, `src/input/input_json.rs:225-330`).  `fields` fails for a Mapping with attributes where attributes
are read (`src/input/input_python.rs:392-424`). -/
structure StrictInLax (W : World α) : Prop where
  list : ∀ strict a seq ex, W.asList true a = .ok (seq, ex) → ∃ ex', W.asList strict a = .ok (seq, ex')
  set : ∀ strict a seq ex, W.asSet true a = .ok (seq, ex) → ∃ ex', W.asSet strict a = .ok (seq, ex')
  tuple : ∀ strict a seq ex, W.asTuple true a = .ok (seq, ex) → ∃ ex', W.asTuple strict a = .ok (seq, ex')
  dict : ∀ strict a entries, W.asDict true a = .ok entries → W.asDict strict a = .ok entries
  view : ∀ strict a view, W.view true a = .ok view → W.view strict a = .ok view
  fields : ∀ strict fa a view, W.asFields true fa a = .ok view → W.asFields strict fa a = .ok view

/-- What the check accepts in strict mode it accepts in lax mode, with the same value. -/
def Leaf.LaxExtends (l : Leaf α) : Prop :=
  ∀ strict a y ex, l.check true a = .ok (y, ex) → ∃ ex', l.check strict a = .ok (y, ex')

/-- And it marks what strict mode would not accept, and only that, as a lax match. -/
def Leaf.LaxMarked (l : Leaf α) : Prop :=
  (∀ a y ex, l.check true a = .ok (y, ex) → ex ≠ .lax ∧ l.check false a = .ok (y, ex)) ∧
  ∀ a t y ex, l.check true a = .error t → l.check false a = .ok (y, ex) → ex = .lax

/-- All members are scalars that mark lax matches. -/
def Members.LaxMarked : Members α → Prop
  | .nil => True
  | .cons _ _ s rest => (∃ l, s = .leaf l ∧ l.LaxMarked) ∧ rest.LaxMarked

/-- The function does not know the strictness of the run (it is not part of `ValidationInfo`,
`src/validators/function.rs:528-590`); its exceptions are errors of the input: it asks neither for omission nor for the
default, and raises no `ValidationError` without errors. -/
def FunctionOk (f : PyFunc α) : Prop :=
  (∀ (x : Extra α) strict a, f { x with strict := strict } a = f x a) ∧
  ∀ x a e, f x a = .error e → match e with
    | .validationError lines => lines ≠ []
    | .pydanticOmit => False
    | .pydanticUseDefault => False
    | _ => True

/-- Schemas for which strict acceptance means lax acceptance with the same value: smart unions of marked scalars only,
no left-to-right unions, no wrap functions, no lax-or-strict schemas. -/
def strictMeansLax : Schema α → Prop
  | .leaf l => l.LaxExtends
  | .union ltr _ members => ltr = false ∧ members.LaxMarked
  | .before f _ => FunctionOk f
  | .after f _ => FunctionOk f
  | .wrap _ _ => False
  | .laxOrStrict _ _ _ => False
  | _ => True

end PC.Engine
