import Verif.Model.Numbers

/-
What integer constraints mean, over the mathematical integers.
-/

namespace PC.Num

/-- The integer a representation stands for. -/
def RInt.val : RInt → Int
  | .i64 i => i.toInt
  | .big b => b

/-- The integer a representation stands for. -/
def EitherInt.val : EitherInt → Int
  | .i64 i => i.toInt
  | .u64 u => u.toNat
  | .big b => b
  | .py n => n

/-- `n` meets every constraint given. -/
def Satisfies (multipleOf le lt ge gt : Option Int) (n : Int) : Prop :=
  (∀ m, multipleOf = some m → m ∣ n) ∧ (∀ b, le = some b → n ≤ b) ∧ (∀ b, lt = some b → n < b) ∧
  (∀ b, ge = some b → b ≤ n) ∧ (∀ b, gt = some b → b < n)

/-- The validator built from constraints given as integers in any representation. -/
def ConstrainedInt.ofInts (multipleOf le lt ge gt : Option EitherInt) : ConstrainedInt :=
  ⟨constraint multipleOf, constraint le, constraint lt, constraint ge, constraint gt⟩

end PC.Num
