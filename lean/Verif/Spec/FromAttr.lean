import Verif.Model.FromAttr

/-
What C112 says a model is read from.
-/

namespace PC.FromAttr
open PC PC.Fields PC.Lookup

variable {α : Type}

/-- Attributes are only looked for in objects of classes of other modules than these. -/
def OwnModule (K : Kinds α) (obj : α) : Prop :=
  ∃ m, K.module obj = some m ∧ m ∉ ["builtins", "datetime", "collections"]

/-- What the input of a model is read as. -/
inductive ReadAs (K : Kinds α) (strict fromAttributes : Bool) (input : α) : Reading α → Prop where
  | dict : K.isDict input = true → ReadAs K strict fromAttributes input (.dict input)
  | mapping : K.isDict input = false → strict = false → K.isMapping input = true →
      ReadAs K strict fromAttributes input (.mapping input)
  | attributes : fromAttributes = true → K.isDict input = false → (strict = true ∨ K.isMapping input = false) →
      OwnModule K input → ReadAs K strict fromAttributes input (.getAttr input none)
  | pair {obj kwargs} : fromAttributes = true → K.isDict input = false → (strict = true ∨ K.isMapping input = false) →
      ¬ OwnModule K input → K.pair input = some (obj, kwargs) → OwnModule K obj →
      ReadAs K strict fromAttributes input (.getAttr obj (some kwargs))

/-- The claim that strict mode reads nothing differently, it only refuses: false with `from_attributes`. -/
def StrictOnlyRefuses (K : Kinds α) (fromAttributes : Bool) : Prop :=
  ∀ input r, readFields K true fromAttributes input = .ok r → readFields K false fromAttributes input = .ok r

/-- The result of a model whose extra items are ignored, for one whose extra items are not. -/
def withoutExtras (b : ExtraBehavior) (r : ValResult α (ModelOut α) × VState α) : ValResult α (ModelOut α) × VState α :=
  match r with
  | (.ok out, st) => (.ok { out with extra := if b = .allow then some [] else none }, st)
  | (.error e, st) => (.error e, st)

end PC.FromAttr
