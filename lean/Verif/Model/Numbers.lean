import Verif.Model.Core

/-
Model of integer validation: the integer part of `src/input/return_enums.rs`,
`src/validators/int.rs` and `src/tools.rs`.
-/

namespace PC.Num

/-- What a check of a scalar may end in: a value, an error of the given type, or a Rust panic. -/
inductive Checked (β : Type) where
  | ok (v : β)
  | err (t : ErrType)
  | panic
  deriving DecidableEq, Repr

/-- `i64::MIN` and `i64::MAX`. -/
def i64Min : Int := -9223372036854775808
/-- See `i64Min`. -/
def i64Max : Int := 9223372036854775807

/-- `extract_i64` of a Python int, `src/tools.rs:131-141`, and `i64::try_from`: the machine
integer, if it fits. -/
def extractI64 (n : Int) : Option Int64 :=
  if i64Min ≤ n ∧ n ≤ i64Max then some (Int64.ofInt n) else none

/-- `Int`, `src/input/return_enums.rs:668-674`. -/
inductive RInt where
  | i64 (i : Int64)
  | big (b : Int)
  deriving DecidableEq, Repr

namespace RInt

/-- The `PartialOrd` instance of `Int`, `src/input/return_enums.rs:688-697` (comparison of
machine integers is comparison of the integers they stand for). -/
def cmp : RInt → RInt → Ordering
  | i64 i1, i64 i2 => compare i1.toInt i2.toInt
  | big b1, big b2 => compare b1 b2
  | i64 i, big b => compare i.toInt b
  | big b, i64 i => compare b i.toInt

/-- The `PartialEq` instance of `Int`, `src/input/return_enums.rs:699-703`. -/
def beq (a b : RInt) : Bool := a.cmp b == .eq

/-- `Int > Int` through `PartialOrd`. -/
def gt (a b : RInt) : Bool := a.cmp b == .gt

/-- `Int < Int` through `PartialOrd`. -/
def lt (a b : RInt) : Bool := a.cmp b == .lt

/-- `Int >= Int` through `PartialOrd`. -/
def ge (a b : RInt) : Bool := a.cmp b == .gt || a.cmp b == .eq

/-- `Int <= Int` through `PartialOrd`. -/
def le (a b : RInt) : Bool := a.cmp b == .lt || a.cmp b == .eq

/-- The `Rem` instance of `Int`, `src/input/return_enums.rs:705-716`; `none` is a panic: division
by zero, and `i64::MIN % -1`, which overflows.  The remainder of the `num-bigint` crate truncates
like that of machine integers. -/
def rem : RInt → RInt → Option RInt
  | i64 i1, i64 i2 =>
    if i2 = 0 ∨ (i1 = Int64.minValue ∧ i2 = -1) then none else some (i64 (i1 % i2))
  | big b1, big b2 => if b2 = 0 then none else some (big (b1.tmod b2))
  | i64 i, big b => if b = 0 then none else some (big (i.toInt.tmod b))
  | big b, i64 i => if i.toInt = 0 then none else some (big (b.tmod i.toInt))

end RInt

/-- `EitherInt`, `src/input/return_enums.rs:571-576`; `py n` is a Python int (or an instance of
a subclass) of value `n`. -/
inductive EitherInt where
  | i64 (i : Int64)
  | u64 (u : UInt64)
  | big (b : Int)
  | py (n : Int)
  deriving DecidableEq, Repr

namespace EitherInt

/-- `extract_int`, `src/tools.rs:143-147`, on a Python int. -/
def extractInt (n : Int) : RInt :=
  match extractI64 n with
  | some i => .i64 i
  | none => .big n

/-- `EitherInt::as_int`, `src/input/return_enums.rs:612-624`. -/
def asInt : EitherInt → RInt
  | i64 i => .i64 i
  | u64 u =>
    match extractI64 u.toNat with
    | some i => .i64 i
    | none => .big u.toNat
  | big b => .big b
  | py n => extractInt n

/-- `EitherInt::into_i64`, `src/input/return_enums.rs:589-610`; `none` is the
`int_parsing_size` error. -/
def intoI64 : EitherInt → Option Int64
  | i64 i => some i
  | u64 u => extractI64 u.toNat
  | big b => extractI64 b
  | py n => extractI64 n

/-- `EitherInt::as_bool`, `src/input/return_enums.rs:626-649` (the conversions to `u8` only
single out zero and one). -/
def asBool : EitherInt → Option Bool
  | i64 i => if i = 0 then some false else if i = 1 then some true else none
  | u64 u => if u = 0 then some false else if u = 1 then some true else none
  | big b => if b = 0 then some false else if b = 1 then some true else none
  | py n => if n = 0 then some false else if n = 1 then some true else none

/-- `EitherInt::upcast`, `src/input/return_enums.rs:579-587`. -/
def upcast (n : Int) : EitherInt :=
  match extractI64 n with
  | some i => .i64 i
  | none => .big n

end EitherInt

/-- `ConstrainedIntValidator`, `src/validators/int.rs:80-88`. -/
structure ConstrainedInt where
  multipleOf : Option RInt := none
  le : Option RInt := none
  lt : Option RInt := none
  ge : Option RInt := none
  gt : Option RInt := none

/-- The upper bounds, `src/validators/int.rs:128-149`; `none` means passed. -/
def ConstrainedInt.upper (c : ConstrainedInt) (n : RInt) : Option ErrType :=
  match c.le with
  | some b => if n.gt b then some (.other "less_than_equal") else lt' n
  | none => lt' n
where
  /-- The `lt` test, `src/validators/int.rs:139-149`. -/
  lt' (n : RInt) : Option ErrType :=
    match c.lt with
    | some b => if n.ge b then some (.other "less_than") else none
    | none => none

/-- The lower bounds, `src/validators/int.rs:150-171`; `none` means passed. -/
def ConstrainedInt.lower (c : ConstrainedInt) (n : RInt) : Option ErrType :=
  match c.ge with
  | some b => if n.lt b then some (.other "greater_than_equal") else gt' n
  | none => gt' n
where
  /-- The `gt` test, `src/validators/int.rs:161-171`. -/
  gt' (n : RInt) : Option ErrType :=
    match c.gt with
    | some b => if n.le b then some (.other "greater_than") else none
    | none => none

/-- The tests after `multiple_of`, `src/validators/int.rs:128-172`. -/
def ConstrainedInt.bounds (c : ConstrainedInt) (e : EitherInt) (n : RInt) : Checked EitherInt :=
  match c.upper n with
  | some t => .err t
  | none =>
    match c.lower n with
    | some t => .err t
    | none => .ok e

/-- `ConstrainedIntValidator::validate` on the integer the input was read as,
`src/validators/int.rs:114-172`. -/
def ConstrainedInt.check (c : ConstrainedInt) (e : EitherInt) : Checked EitherInt :=
  let n := e.asInt
  match c.multipleOf with
  | some m =>
    match n.rem m with
    | none => .panic
    | some r => if !r.beq (.big 0) then .err (.other "multiple_of") else c.bounds e n
  | none => c.bounds e n

/-- `validate_as_int`, `src/validators/int.rs:14-29`: a constraint as given in the schema, once
it has been read as an integer. -/
def constraint (e : Option EitherInt) : Option RInt := e.map EitherInt.asInt

end PC.Num
