import Verif.Model.Literal

/-
What is assumed of Python objects for C29, and what it means for an input to equal a member.
-/

namespace PC.Lit

/-- Assumptions on Python objects: among hashable objects, dict lookup follows an equivalence
relation; two equal bools, ints or strs are equal as keys, and are hashable. -/
structure Lawful (o : PyOps α) : Prop where
  symm : ∀ x y, o.hashable x → o.hashable y → o.keyEq x y → o.keyEq y x
  trans : ∀ x y z, o.hashable x → o.hashable y → o.hashable z → o.keyEq x y → o.keyEq y z →
    o.keyEq x z
  refl : ∀ x, o.hashable x → o.keyEq x x
  bool_hash : ∀ x b, o.strictBool x = some b → o.hashable x
  int_hash : ∀ x n, o.exactInt x = some n → o.hashable x
  str_hash : ∀ x s, o.exactStr x = some s → o.hashable x
  bool_eq : ∀ x y b, o.strictBool x = some b → o.strictBool y = some b → o.keyEq x y
  int_eq : ∀ x y n, o.exactInt x = some n → o.exactInt y = some n → o.keyEq x y
  str_eq : ∀ x y s, o.exactStr x = some s → o.exactStr y = some s → o.keyEq x y

/-- The member `m` equals the input `x`: as dict keys if `m` is hashable, else by `==`. -/
def Matches (o : PyOps α) (m x : α) : Prop :=
  if o.hashable m then o.hashable x ∧ o.keyEq m x else o.eq m x

/-- `n` fits into 64 bits. -/
def Small (n : Int) : Prop := -2 ^ 63 ≤ n ∧ n < 2 ^ 63

end PC.Lit
