import Verif.Model.State

/-
Model of `src/validators/complex.rs`, of `validate_complex` for the three kinds of input and of
`src/serializers/type_serializers/complex.rs`.
-/

namespace PC.Complex

/-- An `f64`; `M` is the type of the magnitudes of the finite ones. -/
inductive Fl (M : Type) where
  | nan
  | inf (neg : Bool)
  | fin (neg : Bool) (m : M)
  deriving DecidableEq, Repr

/-- What is not part of the crate: the magnitude zero, the decimal text of a magnitude
(`f64`'s `Display`, which writes no exponent), the float nearest to an integer, and Python's
`complex(text)` (`none` if it raises `ValueError`). -/
structure Env (M : Type) where
  zero : M
  digits : M → List Char
  ofInt : Int → Fl M
  parse : List Char → Option (Fl M × Fl M)

/-- A complex number. -/
structure Cx (M : Type) where
  re : Fl M
  im : Fl M
  deriving DecidableEq, Repr

/-- A Python object as `validate_complex` looks at it: an instance of `complex` (or of a
subclass), an instance of `str`, an exact `float`, an exact `int`, or anything else (also `bool`
and the other subclasses). -/
inductive Py (M : Type) where
  | complex (c : Cx M)
  | str (s : List Char)
  | float (f : Fl M)
  | int (n : Int)
  | other

/-- A JSON value; `Int` holds those of 64 bits, `BigInt` the others. -/
inductive Js (M : Type) where
  | str (s : List Char)
  | float (f : Fl M)
  | int (n : Int)
  | bigInt (n : Int)
  | other

/-- The three kinds of input. -/
inductive Input (M : Type) where
  | py (x : Py M)
  | json (x : Js M)
  | string (s : List Char)
  | mapping

/-- The outcome of `validate_complex`: `panic` is that of an `unwrap`. -/
inductive Res (M : Type) where
  | panic
  | error (t : ErrType)
  | ok (c : Cx M) (e : Exactness)

variable {M : Type}

/-- `extract::<i64>()`. -/
def fitsI64 (n : Int) : Bool := -(2 ^ 63) ≤ n && n < 2 ^ 63

/-- The float `0.0`. -/
def Env.posZero (E : Env M) : Fl M := .fin false E.zero

/-- `string_to_complex`, `src/validators/complex.rs:57-75`; `complex(text)` raises nothing but
`ValueError`. -/
def stringToComplex (E : Env M) (s : List Char) : Option (Cx M) := (E.parse s).map fun p => ⟨p.1, p.2⟩

/-- `validate_complex` of a Python object, `src/input/input_python.rs:629-666`. -/
def Py.validateComplex (E : Env M) (strict : Bool) (x : Py M) : Res M :=
  match x with
  | .complex c => .ok c .strict
  | x =>
    if strict then .error (.other "is_instance_of")
    else
      match x with
      | .str s =>
        match stringToComplex E s with
        | some c => .ok c .lax
        | none => .error (.other "complex_type")
      | .float f => .ok ⟨f, E.posZero⟩ .lax
      | .int n => if fitsI64 n then .ok ⟨E.ofInt n, E.posZero⟩ .lax else .panic
      | _ => .error (.other "complex_type")

/-- `validate_complex` of a JSON value, `src/input/input_json.rs:346-368`. -/
def Js.validateComplex (E : Env M) (strict : Bool) : Js M → Res M
  | .str s =>
    match stringToComplex E s with
    | some c => .ok c .strict
    | none => .error (.other "complex_str_parsing")
  | .float f =>
    if !strict then .ok ⟨f, E.posZero⟩ .lax else .error (.other "complex_str_parsing")
  | .int n =>
    if !strict then .ok ⟨E.ofInt n, E.posZero⟩ .lax else .error (.other "complex_str_parsing")
  | _ => .error (.other "complex_type")

/-- `validate_complex`; for string mappings `src/input/input_string.rs:247-252`. -/
def Input.validateComplex (E : Env M) (strict : Bool) : Input M → Res M
  | .py x => x.validateComplex E strict
  | .json x => x.validateComplex E strict
  | .string s =>
    match stringToComplex E s with
    | some c => .ok c .strict
    | none => .error (.other "complex_str_parsing")
  | .mapping => .error (.other "complex_type")

/-- `ComplexValidator::validate`, `src/validators/complex.rs:42-50`; `strict` is that of the
validator.  `none` is a panic. -/
def validate (E : Env M) (strict : Bool) (input : Input M) (st : VState (Input M)) :
    Option (ValResult (Input M) (Cx M) × VState (Input M)) :=
  match input.validateComplex E strict with
  | .panic => none
  | .error t => some (.error (.new t input), st)
  | .ok c e => some (.ok c, st.floorExactness e)

/-- `Display` of an `f64`. -/
def Fl.show (E : Env M) : Fl M → List Char
  | .nan => "NaN".toList
  | .inf neg => (if neg then ['-'] else []) ++ "inf".toList
  | .fin neg m => (if neg then ['-'] else []) ++ E.digits m

/-- `f == 0.0`. -/
def Fl.isZero [DecidableEq M] (E : Env M) : Fl M → Bool
  | .fin _ m => m = E.zero
  | _ => false

/-- `f >= 0.0`. -/
def Fl.nonneg [DecidableEq M] (E : Env M) : Fl M → Bool
  | .nan => false
  | .inf neg => !neg
  | .fin neg m => !neg || m = E.zero

/-- `complex_to_str`, `src/serializers/type_serializers/complex.rs:76-88`. -/
def complexToStr [DecidableEq M] (E : Env M) (c : Cx M) : List Char :=
  let s := c.im.show E ++ ['j']
  if !c.re.isZero E then
    let sign : List Char := if c.im.nonneg E then ['+'] else []
    c.re.show E ++ sign ++ s
  else s

end PC.Complex
