import Verif.Model.Complex

/-
Python's `complex(text)`, and what a `complex` schema accepts.
-/

namespace PC.Complex
variable {M : Type}

/-- The end of a number in the text of a complex number. -/
inductive Stop : List Char → Prop where
  | nil : Stop []
  | j {r} : Stop ('j' :: r)
  | plus {r} : Stop ('+' :: r)
  | minus {r} : Stop ('-' :: r)
  | n {r} : Stop ('N' :: r)

/-- What is assumed of C's `strtod` as Python uses it (`PyOS_string_to_double`): it reads a number
as Rust writes it, up to something that cannot belong to it, also after a `+` if there is no other
sign; after `+-` there is no number. -/
structure Strtod (E : Env M) (strtod : List Char → Option (Fl M × List Char)) : Prop where
  shown : ∀ f r, Stop r → strtod (f.show E ++ r) = some (f, r)
  plus : ∀ m r, Stop r → strtod ('+' :: (Fl.fin false m).show E ++ r) = some (.fin false m, r)
  plusInf : ∀ r, Stop r → strtod ('+' :: (Fl.inf false).show E ++ r) = some (.inf false, r)
  twoSigns : ∀ r, strtod ('+' :: '-' :: r) = none

/-- The imaginary part: what follows must be a `j` and nothing else. -/
def endsInJ (re im : Fl M) : List Char → Option (Fl M × Fl M)
  | ['j'] | ['J'] => some (re, im)
  | _ => none

/-- Python's `complex(text)` (`complex_from_string_inner`, `Objects/complexobject.c`), for text
without white space, parentheses and underscores. -/
def pyComplex (E : Env M) (one : M) (strtod : List Char → Option (Fl M × List Char))
    (s : List Char) : Option (Fl M × Fl M) :=
  match strtod s with
  | some (z, '+' :: r) =>
    match strtod ('+' :: r) with
    | some (y, rest) => endsInJ z y rest
    | none => endsInJ z (.fin false one) r
  | some (z, '-' :: r) =>
    match strtod ('-' :: r) with
    | some (y, rest) => endsInJ z y rest
    | none => endsInJ z (.fin true one) r
  | some (z, []) => some (z, E.posZero)
  | some (z, rest) => endsInJ E.posZero z rest
  | none =>
    match s with
    | '+' :: r => endsInJ E.posZero (.fin false one) r
    | '-' :: r => endsInJ E.posZero (.fin true one) r
    | r => endsInJ E.posZero (.fin false one) r

/-- `complex(text)` reads what is written as Python does. -/
def Env.Python (E : Env M) : Prop :=
  ∃ one strtod, Strtod E strtod ∧ ∀ s, (∀ c ∈ s, c ≠ ' ' ∧ c ≠ '(' ∧ c ≠ ')' ∧ c ≠ '_') →
    E.parse s = pyComplex E one strtod s

/-- The text of a magnitude has none of the characters left out in `pyComplex`. -/
def Env.Plain (E : Env M) : Prop :=
  ∀ m, ∀ c ∈ E.digits m, c ≠ ' ' ∧ c ≠ '(' ∧ c ≠ ')' ∧ c ≠ '_'

/-- One of the two zeros. -/
def Env.IsZero (E : Env M) (f : Fl M) : Prop := ∃ neg, f = .fin neg E.zero

/-- The number an input stands for: `exactly` if no conversion is needed, so that strict schemas
accept it too. -/
inductive Means (E : Env M) : Input M → Cx M → (exactly : Bool) → Prop where
  | py {c} : Means E (.py (.complex c)) c true
  | pyText {s re im} : E.parse s = some (re, im) → Means E (.py (.str s)) ⟨re, im⟩ false
  | pyFloat {f} : Means E (.py (.float f)) ⟨f, .fin false E.zero⟩ false
  | pyInt {n} : -(2 ^ 63) ≤ n → n < 2 ^ 63 →
      Means E (.py (.int n)) ⟨E.ofInt n, .fin false E.zero⟩ false
  | jsonText {s re im} : E.parse s = some (re, im) → Means E (.json (.str s)) ⟨re, im⟩ true
  | jsonFloat {f} : Means E (.json (.float f)) ⟨f, .fin false E.zero⟩ false
  | jsonInt {n} : Means E (.json (.int n)) ⟨E.ofInt n, .fin false E.zero⟩ false
  | string {s re im} : E.parse s = some (re, im) → Means E (.string s) ⟨re, im⟩ true

end PC.Complex
