import Verif.Model.IntParse

/-
What it means for a string to be an integer literal that Python's `int()` accepts in base ten,
optionally followed by a fractional part made of zeros.  Python also accepts digits of other
scripts and a few more blank characters (U+001C to U+001F); neither is in this grammar.
-/

namespace PC.IntParse

/-- Digits in groups separated by single underscores: it begins and ends with a digit, contains
only digits and underscores, and no two underscores in a row. -/
structure DigitGroups (b : List Char) : Prop where
  chars : ∀ c ∈ b, isDigit c = true ∨ c = '_'
  head : ∃ c, b.head? = some c ∧ isDigit c = true
  last : ∃ c, b.getLast? = some c ∧ isDigit c = true
  single : ¬ ['_', '_'] <:+: b

/-- A sign or nothing. -/
def IsSign (s : List Char) : Prop := s = [] ∨ s = ['+'] ∨ s = ['-']

/-- Nothing, or a dot and at least one zero. -/
def IsZeroFraction (f : List Char) : Prop :=
  f = [] ∨ ∃ zs, zs ≠ [] ∧ (∀ c ∈ zs, c = '0') ∧ f = '.' :: zs

/-- The strings that are integer literals. -/
def IsIntLiteral (s : List Char) : Prop :=
  ∃ lead sign body frac trail, s = lead ++ sign ++ body ++ frac ++ trail ∧
    (∀ c ∈ lead, isSpace c = true) ∧ (∀ c ∈ trail, isSpace c = true) ∧
    IsSign sign ∧ DigitGroups body ∧ IsZeroFraction frac

/-- The integer a literal stands for: the digits before the dot, in base ten, negated if there is
a minus sign. -/
def literalValue (s : List Char) : Int :=
  let n := digitsVal ((s.takeWhile (· ≠ '.')).filter isDigit)
  if '-' ∈ s then -(n : Int) else n

/-- A string without two underscores in a row and without `0-` and `_-`. -/
structure Tidy (s : List Char) : Prop where
  double : ¬ ['_', '_'] <:+: s
  zeroMinus : ¬ ['0', '-'] <:+: s
  underscoreMinus : ¬ ['_', '-'] <:+: s

end PC.IntParse
