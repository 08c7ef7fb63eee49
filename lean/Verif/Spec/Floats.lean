import Verif.Model.Floats

/-
Doubles as rational numbers with infinities.
-/

namespace PC.Float

/-- The rational number a finite double is. -/
def F64.value : F64 → Option Rat
  | .fin num k => some (mkRat num (2 ^ k))
  | _ => none

/-- `x ≤ y` as real numbers with infinities; never for NaN. -/
def Le (x y : F64) : Prop :=
  x ≠ .nan ∧ y ≠ .nan ∧
  (x = .negInf ∨ y = .posInf ∨ ∃ p q, x.value = some p ∧ y.value = some q ∧ p ≤ q)

/-- `x < y` as real numbers with infinities; never for NaN. -/
def Lt (x y : F64) : Prop :=
  x ≠ .nan ∧ y ≠ .nan ∧ x ≠ .posInf ∧ y ≠ .negInf ∧
  (x = .negInf ∨ y = .posInf ∨ ∃ p q, x.value = some p ∧ y.value = some q ∧ p < q)

/-- `x` is within all the bounds. -/
def Within (le lt ge gt : Option F64) (x : F64) : Prop :=
  (∀ b, le = some b → Le x b) ∧ (∀ b, lt = some b → Lt x b) ∧
  (∀ b, ge = some b → Le b x) ∧ (∀ b, gt = some b → Lt b x)

end PC.Float
