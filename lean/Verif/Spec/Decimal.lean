import Verif.Model.Decimal

/-
What the constraints of decimals mean, in terms of the value only.
-/

namespace PC.Decimal

/-- The value of a decimal that is finite. -/
def Dec.value : Dec → Option ℚ
  | .fin s c e => some (finValue s c e)
  | _ => none

/-- `x` has at most `p` decimal places. -/
def Places (p : Nat) (x : ℚ) : Prop := ∃ n : ℤ, x * 10 ^ p = n

/-- `x` has at most `w` digits before the point. -/
def Whole (w : Nat) (x : ℚ) : Prop := |x| < 10 ^ w

/-- `x` can be written with at most `m` digits, `k` of them after the point. -/
def Digits (m : Nat) (x : ℚ) : Prop := ∃ (n : ℤ) (k : Nat), k ≤ m ∧ |n| < 10 ^ m ∧ x * 10 ^ k = n

/-- The context represents a finite decimal without rounding. -/
def Context.Holds (ctx : Context) (c : Nat) (e : Int) : Prop :=
  numDigits c ≤ ctx.prec ∧ ctx.etiny ≤ e ∧ numDigits c + e - 1 ≤ ctx.emax

/-- The constraints of digits, as documented: `max_digits`, `decimal_places`, and the rest for digits before the point. -/
def DigitsFit (v : DecimalV) (x : ℚ) : Prop :=
  (∀ m, v.maxDigits = some m → Digits m x) ∧ (∀ p, v.decimalPlaces = some p → Places p x) ∧
    ∀ m p, v.maxDigits = some m → v.decimalPlaces = some p → Whole (m - p) x

/-- The order of decimals with infinities, `d < d'`; false if one of them is NaN. -/
def Less : Dec → Dec → Prop
  | .inf true, .inf false => True
  | .inf true, .fin .. => True
  | .fin .., .inf false => True
  | .fin s c e, .fin s' c' e' => finValue s c e < finValue s' c' e'
  | _, _ => False

/-- Equality of decimals; false if one of them is NaN. -/
def Same : Dec → Dec → Prop
  | .inf s, .inf s' => s = s'
  | .fin s c e, .fin s' c' e' => finValue s c e = finValue s' c' e'
  | _, _ => False

/-- The bounds hold. -/
def InBounds (v : DecimalV) (d : Dec) : Prop :=
  (∀ b, v.le = some b → Less d b ∨ Same d b) ∧ (∀ b, v.lt = some b → Less d b) ∧
    (∀ b, v.ge = some b → Less b d ∨ Same d b) ∧ ∀ b, v.gt = some b → Less b d

/-- No bound is NaN. -/
def DecimalV.Proper (v : DecimalV) : Prop :=
  ∀ b, v.le = some b ∨ v.lt = some b ∨ v.ge = some b ∨ v.gt = some b → b.isNan = false

end PC.Decimal
