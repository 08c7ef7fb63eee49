import Verif.Model.LaxRetry

/-
What it means that a serialiser accepts more on a second try.
-/

namespace PC.LaxRetry

/-- A serialiser that accepts more on a second try (a model, a dataclass, a tuple, an integer) can be reached
from `x`. -/
inductive Reaches (body : Nat → Ser) : Ser → Prop
  | leaf : Reaches body (.leaf true)
  | left {a b} : Reaches body a → Reaches body (.or a b)
  | right {a b} : Reaches body b → Reaches body (.or a b)
  | ref {i} : Reaches body (body i) → Reaches body (.ref i)

/-- The reference `i` occurs in `x`. -/
def Ser.Mentions : Ser → Nat → Prop
  | .leaf _, _ => False
  | .or a b, i => a.Mentions i ∨ b.Mentions i
  | .ref j, i => i = j

/-- The schema has the references `0, ..., m - 1`. -/
def Within (body : Nat → Ser) (m : Nat) : Prop := ∀ i j, i < m → (body i).Mentions j → j < m

/-- The definitions are not recursive: references can be ranked so that definitions mention references of
lower rank only. -/
def NotRecursive (body : Nat → Ser) : Prop :=
  ∃ rank : Nat → Nat, ∀ i j, (body i).Mentions j → rank j < rank i

end PC.LaxRetry
