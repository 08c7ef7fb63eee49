import Verif.Model.Core
import Mathlib.Data.Nat.Log
import Mathlib.Data.Int.Log
import Mathlib.Data.Rat.Floor

/-
Model of decimal constraints, `src/validators/decimal.rs`.  The methods of `decimal.Decimal` that it calls are modelled
after the documentation of the `decimal` module (the General Decimal Arithmetic specification).
-/

namespace PC.Decimal

/-- A `decimal.Decimal`; a finite one is `(-1)^neg * coef * 10^exp`, `Decimal.as_tuple()` gives the three parts. -/
inductive Dec where
  | nan (signaling : Bool)
  | inf (neg : Bool)
  | fin (neg : Bool) (coef : Nat) (exp : Int)
  deriving DecidableEq, Repr

/-- The context of the thread (`decimal.getcontext()`), with rounding half to even, no clamping, and traps for overflow,
division by zero and invalid operations, as is the default. -/
structure Context where
  prec : Nat
  emin : Int
  emax : Int

/-- The default context. -/
def Context.default : Context := ⟨28, -999999, 999999⟩

/-- The smallest exponent, `Context.Etiny()`. -/
def Context.etiny (ctx : Context) : Int := ctx.emin - ctx.prec + 1

/-- The number of digits of a coefficient, `len(as_tuple().digits)`; zero has one digit. -/
def numDigits (c : Nat) : Nat := Nat.log 10 c + 1

/-- `c / d` to the nearest integer, ties to even. -/
def roundEven (c d : Nat) : Nat :=
  if 2 * (c % d) < d then c / d
  else if d < 2 * (c % d) then c / d + 1
  else if c / d % 2 = 0 then c / d
  else c / d + 1

/-- Rounds a coefficient that is not zero to the precision of the context (`Decimal._fix`); `none` is `Overflow`, which is
raised. -/
def fix (ctx : Context) (c : Nat) (e : Int) : Option (Nat × Int) :=
  let expMin := numDigits c + e - ctx.prec
  let etop := ctx.emax - ctx.prec + 1
  if etop < expMin then none
  else
    let m := max expMin ctx.etiny
    if e < m then
      let c' := roundEven c (10 ^ (m - e).toNat)
      if ctx.prec < numDigits c' then if etop < m + 1 then none else some (c' / 10, m + 1) else some (c', m)
    else some (c, e)

/-- Takes off trailing zeros. -/
def strip (c : Nat) (e : Int) : Nat × Int :=
  if h : c = 0 then (0, 0)
  else if c % 10 = 0 then strip (c / 10) (e + 1)
  else (c, e)
termination_by c
decreasing_by omega

/-- Coefficient and exponent of `Decimal.normalize()`; `none` when it raises. -/
def normalize (ctx : Context) (c : Nat) (e : Int) : Option (Nat × Int) :=
  if c = 0 then some (0, 0) else (fix ctx c e).map fun x => strip x.1 x.2

/-- `extract_decimal_digits_info` from the digits and exponent, `src/validators/decimal.rs:108-133`: decimals and digits. -/
def digitsInfo (c : Nat) (e : Int) : Nat × Nat :=
  if 0 ≤ e then (0, numDigits c + e.toNat) else ((-e).toNat, max (numDigits c) (-e).toNat)

/-- `DecimalValidator`, `src/validators/decimal.rs:47-59`. -/
structure DecimalV where
  allowInfNan : Bool
  multipleOf : Option Dec
  le : Option Dec
  lt : Option Dec
  ge : Option Dec
  gt : Option Dec
  maxDigits : Option Nat
  decimalPlaces : Option Nat

/-- What validation may do: return the decimal, report an error, or let an exception of the `decimal` module through
(`?` on a `PyErr`, an internal error). -/
inductive Res where
  | ok (d : Dec)
  | err (t : ErrType)
  | raise
  deriving DecidableEq, Repr

/-- Both the number of digits as written and the one of the normal form are above a limit, if there is one
(`src/validators/decimal.rs:154-155`, `:166`, `:183-185`). -/
def exceeds (limit : Option Nat) (written normal : Nat) : Bool :=
  match limit with
  | some m => decide (m < written) && decide (m < normal)
  | none => false

/-- The limit for digits before the point, `src/validators/decimal.rs:176-181`. -/
def DecimalV.maxWhole (v : DecimalV) : Option Nat :=
  match v.decimalPlaces, v.maxDigits with
  | some p, some m => some (m - p)
  | _, _ => none

/-- The checks of digits, `src/validators/decimal.rs:149-196`, on a finite decimal: the error, if any.  If `normalize()`
raises, the decimal stands for its normal form (`:105-111`). -/
def checkDigits (ctx : Context) (v : DecimalV) (c : Nat) (e : Int) : Option ErrType :=
  let info := digitsInfo c e
  let n := (normalize ctx c e).getD (c, e)
  let normal := digitsInfo n.1 n.2
  if exceeds v.maxDigits info.2 normal.2 then some (.other "decimal_max_digits")
  else if exceeds v.decimalPlaces info.1 normal.1 then some (.other "decimal_max_places")
  else if exceeds v.maxWhole (info.2 - info.1) (normal.2 - normal.1) then some (.other "decimal_whole_digits")
  else none

/-- The value of a finite decimal. -/
def finValue (neg : Bool) (c : Nat) (e : Int) : ℚ := (if neg then -1 else 1) * c * 10 ^ e

/-- A rational to the nearest integer, ties to even. -/
def roundEvenQ (x : ℚ) : ℤ :=
  if x - ⌊x⌋ < 1 / 2 then ⌊x⌋
  else if 1 / 2 < x - ⌊x⌋ then ⌊x⌋ + 1
  else if ⌊x⌋ % 2 = 0 then ⌊x⌋
  else ⌊x⌋ + 1

/-- The exponent of the last digit of a quotient. -/
def lastPlace (ctx : Context) (q : ℚ) : ℤ := max (Int.log 10 |q| - ctx.prec + 1) ctx.etiny

/-- The quotient `q` of two finite decimals as `Decimal.__truediv__` rounds it; `none` is `Overflow`. -/
def roundQ (ctx : Context) (q : ℚ) : Option ℚ :=
  if q = 0 then some 0
  else
    let r := roundEvenQ (q / 10 ^ lastPlace ctx q) * (10 : ℚ) ^ lastPlace ctx q
    if |r| < 10 ^ (ctx.emax + 1) then some r else none

/-- `(decimal / multiple_of) % 1 == 0`, `src/validators/decimal.rs:200-204`; `none` is an exception.  `%` raises
`DivisionImpossible` when the whole part has more digits than the precision. -/
def isMultiple (ctx : Context) : Dec → Dec → Option Bool
  | .nan true, _ => none
  | .nan false, .nan true => none
  | .nan false, _ => some false
  | _, .nan true => none
  | _, .nan false => some false
  | .inf _, _ => none
  | .fin .., .inf _ => some true
  | .fin s c e, .fin s' c' e' =>
    if c' = 0 then none
    else
      match roundQ ctx (finValue s c e / finValue s' c' e') with
      | none => none
      | some r => if 10 ^ ctx.prec ≤ |r| then none else some (decide (r.den = 1))

/-- `Decimal.__le__` and the like, for a decimal that is not NaN; an order comparison with NaN raises.  Comparisons are exact. -/
def cmp : Dec → Dec → Option Ordering
  | .nan _, _ => none
  | _, .nan _ => none
  | .inf s, .inf s' => some (if s = s' then .eq else if s then .lt else .gt)
  | .inf s, .fin .. => some (if s then .lt else .gt)
  | .fin .., .inf s => some (if s then .gt else .lt)
  | .fin s c e, .fin s' c' e' => some (compare (finValue s c e) (finValue s' c' e'))

/-- `Decimal.is_nan()`. -/
def Dec.isNan : Dec → Bool
  | .nan _ => true
  | _ => false

/-- One bound, `src/validators/decimal.rs:227-267`; `pass` are the orderings that satisfy it, `next` what follows. -/
def bound (b : Option Dec) (pass : Ordering → Bool) (t : String) (d : Dec) (next : Res) : Res :=
  match b with
  | none => next
  | some b =>
    if d.isNan then .err (.other t)
    else
      match cmp d b with
      | none => .raise
      | some o => if pass o then next else .err (.other t)

/-- The four bounds, `src/validators/decimal.rs:227-267`. -/
def checkBounds (v : DecimalV) (d : Dec) : Res :=
  bound v.le (fun o => o == .lt || o == .eq) "less_than_equal" d <|
  bound v.lt (fun o => o == .lt) "less_than" d <|
  bound v.ge (fun o => o == .gt || o == .eq) "greater_than_equal" d <|
  bound v.gt (fun o => o == .gt) "greater_than" d (.ok d)

/-- `multiple_of`, `src/validators/decimal.rs:200-213`, and then the bounds. -/
def checkMultiple (ctx : Context) (v : DecimalV) (d : Dec) : Res :=
  match v.multipleOf with
  | none => checkBounds v d
  | some m =>
    match isMultiple ctx d m with
    | none => .raise
    | some false => .err (.other "multiple_of")
    | some true => checkBounds v d

/-- `DecimalValidator::validate` on the decimal the input was read as, `src/validators/decimal.rs:136-272`. -/
def DecimalV.check (ctx : Context) (v : DecimalV) (d : Dec) : Res :=
  if !v.allowInfNan || (v.maxDigits.isSome || v.decimalPlaces.isSome) then
    match d with
    | .fin _ c e =>
      if v.maxDigits.isSome || v.decimalPlaces.isSome then
        match checkDigits ctx v c e with
        | some t => .err t
        | none => checkMultiple ctx v d
      else checkMultiple ctx v d
    | _ => .err (.other "finite_number")
  else checkMultiple ctx v d

end PC.Decimal
