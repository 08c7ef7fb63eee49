import Verif.Model.LitText
import Verif.Spec.Literal

/-
What C118 speaks of.
-/

namespace PC.Lit
open PC.IntParse

/-- `x` is the Python `str` with the characters `s`. -/
structure IsText (o : PyOps α) (s : List Char) (x : α) : Prop where
  str : o.exactStr x = some s
  noBool : o.strictBool x = none
  noInt : o.exactInt x = none

/-- Python's `==`: neither bools nor ints equal text. -/
structure Apart (o : PyOps α) : Prop where
  bool : ∀ m b s x, o.strictBool m = some b → o.exactStr x = some s → o.keyEq m x = false
  int : ∀ m n s x, o.exactInt m = some n → o.exactStr x = some s → o.keyEq m x = false

/-- The full claim of C118: text that comes as a key of a JSON object, or in `validate_strings`, is validated as the
same text in Python. -/
def TextAsPython (o : PyOps α) (expected : List α) : Prop :=
  ∀ src s x, IsText o s x → validate o expected (.ofText src s x) = validate o expected (.ofPy o x)

/-- The text stands for a bool that is listed. -/
def StandsForListed (o : PyOps α) (expected : List α) (s : List Char) (b : Bool) : Prop :=
  strAsBool s = .ok b ∧ ∃ m ∈ expected, o.strictBool m = some b

end PC.Lit
