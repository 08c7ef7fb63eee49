import Verif.Model.Numbers

/-
Model of floats as inputs: conversion to an integer (`src/input/shared.rs`) and float constraints
(`src/validators/float.rs`).
-/

namespace PC.Float
open PC.Num

/-- A double (Rust `f64`, Python `float`).  A finite one is an integer divided by a power of two,
`fin num k` standing for `num / 2^k`; every finite double is of that form.  The two zeros are not
told apart, nor do the modelled functions do so. -/
inductive F64 where
  | nan
  | posInf
  | negInf
  | fin (num : Int) (k : Nat)
  deriving DecidableEq, Repr

/-- `f64::is_finite`. -/
def F64.isFinite : F64 → Bool
  | .fin _ _ => true
  | _ => false

/-- `f64::partial_cmp` (IEEE comparison). -/
def F64.cmp : F64 → F64 → Option Ordering
  | .nan, _ => none
  | _, .nan => none
  | .posInf, .posInf => some .eq
  | .posInf, _ => some .gt
  | .negInf, .negInf => some .eq
  | .negInf, _ => some .lt
  | .fin _ _, .posInf => some .lt
  | .fin _ _, .negInf => some .gt
  | .fin a k, .fin b l => some (compare (a * 2 ^ l) (b * 2 ^ k))

/-- `float_as_int`, `src/input/shared.rs:202-212`.  `float % 1.0` is exact; `i64::MAX as f64` is
2^63; `float as i64` truncates. -/
def floatAsInt : F64 → Checked Int
  | .fin num k =>
    if num.tmod (2 ^ k) ≠ 0 then .err (.other "int_from_float")
    else if -(2 ^ 63) * 2 ^ k < num ∧ num < 2 ^ 63 * 2 ^ k then .ok (num.tdiv (2 ^ k))
    else .err (.other "int_parsing_size")
  | _ => .err (.other "finite_number")

/-- `decimal_as_int`, `src/input/shared.rs:214-230`, from what the methods `is_finite` and
`as_integer_ratio` of the decimal return (the denominator of a decimal may not fit in an `i64`:
then it is not one either). -/
def decimalAsInt (finite : Bool) (numerator denominator : Int) : Checked Int :=
  if !finite then .err (.other "finite_number")
  else
    match extractI64 denominator with
    | some d => if d ≠ 1 then .err (.other "int_from_float") else .ok numerator
    | none => .err (.other "int_from_float")

/-- `ConstrainedFloatValidator`, `src/validators/float.rs:86-95`.  The floating-point arithmetic
of `multiple_of` (`:111-123`) is a parameter: `multipleOf` is the test `diff <= 1e-9`. -/
structure ConstrainedFloat where
  allowInfNan : Bool
  multipleOf : Option (F64 → Bool)
  le : Option F64
  lt : Option F64
  ge : Option F64
  gt : Option F64

/-- One bound: `pass` are the orderings that satisfy it. -/
def bound (b : Option F64) (pass : Ordering → Bool) (t : String) (x : F64) : Option ErrType :=
  match b with
  | none => none
  | some b =>
    match x.cmp b with
    | some o => if pass o then none else some (.other t)
    | none => some (.other t)

/-- `ConstrainedFloatValidator::validate` on the float the input was read as,
`src/validators/float.rs:106-169`. -/
def ConstrainedFloat.check (c : ConstrainedFloat) (x : F64) : Checked F64 :=
  if !c.allowInfNan && !x.isFinite then .err (.other "finite_number")
  else if (c.multipleOf.map fun m => m x) = some false then .err (.other "multiple_of")
  else
    match bound c.le (fun o => o == .lt || o == .eq) "less_than_equal" x with
    | some t => .err t
    | none =>
      match bound c.lt (fun o => o == .lt) "less_than" x with
      | some t => .err t
      | none =>
        match bound c.ge (fun o => o == .gt || o == .eq) "greater_than_equal" x with
        | some t => .err t
        | none =>
          match bound c.gt (fun o => o == .gt) "greater_than" x with
          | some t => .err t
          | none => .ok x

/-- `FloatValidator::validate`, `src/validators/float.rs:74-78`. -/
def plainFloat (allowInfNan : Bool) (x : F64) : Checked F64 :=
  if !allowInfNan && !x.isFinite then .err (.other "finite_number") else .ok x

/-- `FloatBuilder::build`, `src/validators/float.rs:19-42`: the validator with constraints is only built if there is one. -/
def floatSchema (c : ConstrainedFloat) (x : F64) : Checked F64 :=
  if c.multipleOf.isSome || c.le.isSome || c.lt.isSome || c.ge.isSome || c.gt.isSome then c.check x
  else plainFloat c.allowInfNan x

end PC.Float
