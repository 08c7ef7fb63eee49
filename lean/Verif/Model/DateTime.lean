import Verif.Model.Floats

/-
Model of dates, times and durations: `src/input/datetime.rs`, the temporal parts of
`src/input/input_python.rs` and `src/input/input_json.rs`, and the validators
`src/validators/{date,datetime,time,timedelta}.rs`.

The parsing and calendar functions of the speedate crate are not part of /repo; they appear as the
parameters `Speedate`.  `Duration::new` (also speedate) is written out below as documented there.
-/

namespace PC.Time
open PC.Num PC.Float

/-! ### Durations -/

/-- `speedate::Duration`: a sign and a magnitude. -/
structure Duration where
  positive : Bool
  day : Nat
  second : Nat
  microsecond : Nat
  deriving DecidableEq, Repr

/-- Rust `as u32` of a non-negative integer: wraps. -/
def asU32 (n : Nat) : Nat := n % 2 ^ 32

/-- Rust `as u32` of a non-negative float: saturates (`n` is the truncated value). -/
def satU32 (n : Nat) : Nat := min n (2 ^ 32 - 1)

/-- `speedate::Duration::new` (assumed; called at `src/input/datetime.rs:168,183,528,538`): carries
microseconds into seconds and seconds into days, and fails if there are more than 999999999 days
(`none`).  The additions are checked `u32` additions. -/
def Duration.new (positive : Bool) (day second microsecond : Nat) : Option Duration :=
  let second' := second + microsecond / 1000000
  let day' := day + second' / 86400
  if second' ≥ 2 ^ 32 ∨ day' > 999999999 then none
  else some ⟨positive, day', second' % 86400, microsecond % 1000000⟩

/-- A Python `timedelta`: days may be negative, seconds and microseconds are not. -/
structure Delta where
  days : Int
  seconds : Int
  microseconds : Int
  deriving DecidableEq, Repr

/-- Total microseconds of a `timedelta` as Python defines it. -/
def Delta.total (d : Delta) : Int := (d.days * 86400 + d.seconds) * 1000000 + d.microseconds

/-- `PyDelta::new(.., normalize = true)`: Python's `timedelta(days, seconds, microseconds)`
(CPython `datetime` module); `none` is the `OverflowError` for more than 999999999 days. -/
def Delta.new (days seconds microseconds : Int) : Option Delta :=
  let s := seconds + microseconds / 1000000
  let d := days + s / 86400
  if d < -999999999 ∨ d > 999999999 then none
  else some ⟨d, s % 86400, microseconds % 1000000⟩

/-- `pytimedelta_exact_as_duration`, `src/input/datetime.rs:148-169`; `none` is the panic of
`unwrap`. -/
def deltaToDuration (d : Delta) : Option Duration :=
  let positive := d.days ≥ 0
  if positive then
    Duration.new true d.days.toNat d.seconds.toNat d.microseconds.toNat
  else
    let (seconds, microseconds) :=
      if d.microseconds ≠ 0 then (d.seconds + 1, (d.microseconds - 1000000).natAbs)
      else (d.seconds, d.microseconds.natAbs)
    let (days, seconds) :=
      if seconds ≠ 0 then (d.days + 1, (seconds - 86400).natAbs) else (d.days, seconds.natAbs)
    Duration.new false days.natAbs seconds microseconds

/-- `duration_as_pytimedelta`, `src/input/datetime.rs:187-196`. -/
def durationToDelta (d : Duration) : Option Delta :=
  let sign : Int := if d.positive then 1 else -1
  Delta.new (sign * d.day) (sign * d.second) (sign * d.microsecond)

/-- `int_as_duration`, `src/input/datetime.rs:522-529`; `none` is the `time_delta_parsing`
error.  The argument is an `i64`. -/
def intAsDuration (total : Int) : Option Duration :=
  let positive := total ≥ 0
  let t := total.natAbs
  Duration.new positive (asU32 (t / 86400)) (asU32 (t % 86400)) 0

/-- How `x * 1_000_000.0` followed by `round() as u32` comes out for a fraction `n / 2^k` with
`0 ≤ n < 2^k`: the multiplication is a floating-point one. -/
abbrev MulMillion := Nat → Nat → Nat

/-- `float_as_duration`, `src/input/datetime.rs:531-540`.  `total_seconds.fract()` is exact, the
multiplication is `mul`; `(total_seconds / 86400f64) as u32` is taken to be the saturated quotient
of the integral part. -/
def floatAsDuration (mul : MulMillion) : F64 → Option Duration
  | .nan => none
  | .posInf | .negInf => Duration.new true (2 ^ 32 - 1) 0 0
  | .fin num k =>
    let positive := num ≥ 0
    let n := num.natAbs
    let whole := n / 2 ^ k
    Duration.new positive (satU32 (whole / 86400)) (whole % 86400) (mul (n % 2 ^ k) k)

/-! ### Dates and times -/

/-- `speedate::Date`. -/
structure Date where
  year : Nat
  month : Nat
  day : Nat
  deriving DecidableEq, Repr

/-- `speedate::Time`. -/
structure Time where
  hour : Nat
  minute : Nat
  second : Nat
  microsecond : Nat
  tzOffset : Option Int
  deriving DecidableEq, Repr

/-- `speedate::DateTime`. -/
structure DateTime where
  date : Date
  time : Time
  deriving DecidableEq, Repr

/-- The functions of speedate used by the modelled code, `src/input/datetime.rs:326-408,449-520`.
`none` is a parse error. -/
structure Speedate where
  parseDate : List UInt8 → Option Date
  parseDateTime : List UInt8 → Option DateTime
  parseTime : List UInt8 → Option Time
  parseDuration : List UInt8 → Option Duration
  /-- seconds and microseconds -/
  fromTimestamp : Int → Nat → Option DateTime
  timeFromTimestamp : Nat → Nat → Option Time

/-- Errors of the temporal readers: a single line error, or another exception. -/
inductive TErr where
  | line (t : ErrType)
  | internal
  deriving DecidableEq, Repr

/-- A Python `date`, `datetime` or `time` object: an identity and what `as_raw` makes of it
(`src/input/datetime.rs:42-49,198-223,281-286`; `none` if reading it raises). -/
structure PyRef (α : Type) where
  id : Nat
  raw : Option α
  deriving DecidableEq, Repr

/-- `EitherDate`, `EitherTime`, `EitherDateTime`, `src/input/datetime.rs:25-28,80-83,264-267`. -/
inductive Either (α : Type) where
  | raw (a : α)
  | py (r : PyRef α)
  deriving DecidableEq, Repr

/-- `as_raw`, `src/input/datetime.rs:71-76,245-250,318-323`. -/
def Either.asRaw {α : Type} : Either α → Option α
  | .raw a => some a
  | .py r => r.raw

/-- Saturating `as i64` of a float's floor. -/
def satI64 (n : Int) : Int := max (-(2 ^ 63)) (min n (2 ^ 63 - 1))

/-- `int_as_datetime`, `src/input/datetime.rs:385-408`. -/
def intAsDatetime (sp : Speedate) (timestamp : Int) (us : Nat) : Except TErr (Either DateTime) :=
  match sp.fromTimestamp timestamp us with
  | some dt => .ok (.raw dt)
  | none => .error (.line (.other "datetime_parsing"))

/-- `float_as_datetime`, `src/input/datetime.rs:423-429`.  `floor` and `fract().abs()` are exact;
the multiplication by a million is `mul`.  For an infinite float the fraction is `NaN`, which
rounds to 0. -/
def floatAsDatetime (sp : Speedate) (mul : MulMillion) : F64 → Except TErr (Either DateTime)
  | .nan => .error (.line (.other "datetime_parsing"))
  | .posInf => intAsDatetime sp (2 ^ 63 - 1) 0
  | .negInf => intAsDatetime sp (-(2 ^ 63)) 0
  | .fin num k => intAsDatetime sp (satI64 (num / 2 ^ k)) (mul (num.natAbs % 2 ^ k) k)

/-- `int_as_time`, `src/input/datetime.rs:449-486`. -/
def intAsTime (sp : Speedate) (timestamp : Int) (us : Nat) : Except TErr (Either Time) :=
  if timestamp < 0 then .error (.line (.other "time_parsing"))
  else
    let t : Nat := if timestamp > 2 ^ 32 - 1 then 2 ^ 32 - 1 else timestamp.toNat
    match sp.timeFromTimestamp t us with
    | some t => .ok (.raw t)
    | none => .error (.line (.other "time_parsing"))

/-- `float_as_time`, `src/input/datetime.rs:488-493`. -/
def floatAsTime (sp : Speedate) (mul : MulMillion) : F64 → Except TErr (Either Time)
  | .nan => .error (.line (.other "time_parsing"))
  | .posInf => intAsTime sp (2 ^ 63 - 1) 0
  | .negInf => intAsTime sp (-(2 ^ 63)) 0
  | .fin num k => intAsTime sp (satI64 (num / 2 ^ k)) (mul (num.natAbs % 2 ^ k) k)

/-- `bytes_as_date` etc., `src/input/datetime.rs:326-383,505-520`. -/
def parsed {α β : Type} (mk : α → β) (err : String) : Option α → Except TErr β
  | some a => .ok (mk a)
  | none => .error (.line (.other err))

/-! ### Inputs -/

/-- `EitherTimedelta`, `src/input/datetime.rs:99-103`: for a subclass instance, `sub` carries what
`total_seconds()` returns. -/
inductive EitherDelta where
  | raw (d : Duration)
  | exact (d : Delta)
  | sub (d : Delta) (totalSeconds : Option F64)
  deriving DecidableEq, Repr

/-- Python objects as the temporal readers see them. -/
inductive PyKind where
  | date (exact : Bool) (r : PyRef Date)
  /-- a `datetime` (which is a `date` too) -/
  | datetime (exact : Bool) (r : PyRef DateTime)
  | time (exact : Bool) (r : PyRef Time)
  | delta (d : EitherDelta)
  /-- a `str`, `none` if it cannot be encoded -/
  | str (b : Option (List UInt8))
  | bytes (b : List UInt8)
  | bool (b : Bool)
  | other
  deriving DecidableEq, Repr

/-- A Python object: `index` is what extracting an `i64` gives, `float` what extracting an `f64`
gives. -/
structure PyTemporal where
  kind : PyKind
  index : Option Int
  float : Option F64
  deriving DecidableEq, Repr

/-- Result of a reader: a value and its exactness (`ValidationMatch`). -/
abbrev TMatch (β : Type) := Except TErr (β × Exactness)

/-- Attach an exactness. -/
def matched {β : Type} (e : Exactness) (r : Except TErr β) : TMatch β := r.map fun b => (b, e)

/-- `validate_date` of a Python object, `src/input/input_python.rs:497-522`. -/
def PyTemporal.validateDate (sp : Speedate) (strict : Bool) (x : PyTemporal) :
    TMatch (Either Date) :=
  match x.kind with
  | .date true r => .ok (.py r, .exact)
  | .datetime _ _ => .error (.line (.other "date_type"))
  | .date false r => .ok (.py r, .strict)
  | .str b =>
    if strict then .error (.line (.other "date_type"))
    else
      match b with
      | none => .error (.line (.other "string_unicode"))
      | some b => matched .lax (parsed .raw "date_parsing" (sp.parseDate b))
  | .bytes b =>
    if strict then .error (.line (.other "date_type"))
    else matched .lax (parsed .raw "date_parsing" (sp.parseDate b))
  | _ => .error (.line (.other "date_type"))

/-- `validate_time` of a Python object, `src/input/input_python.rs:524-556`. -/
def PyTemporal.validateTime (sp : Speedate) (mul : MulMillion) (strict : Bool) (x : PyTemporal) :
    TMatch (Either Time) :=
  match x.kind with
  | .time true r => .ok (.py r, .exact)
  | .time false r => .ok (.py r, .strict)
  | k =>
    if strict then .error (.line (.other "time_type"))
    else
      match k with
      | .str none => .error (.line (.other "string_unicode"))
      | .str (some b) => matched .lax (parsed .raw "time_parsing" (sp.parseTime b))
      | .bytes b => matched .lax (parsed .raw "time_parsing" (sp.parseTime b))
      | .bool _ => .error (.line (.other "time_type"))
      | _ =>
        match x.index with
        | some n => matched .lax (intAsTime sp n 0)
        | none =>
          match x.float with
          | some f => matched .lax (floatAsTime sp mul f)
          | none => .error (.line (.other "time_type"))

/-- Midnight without a time zone (`src/validators/datetime.rs:168-174`,
`src/input/datetime.rs:431-445`). -/
def midnight : Time := ⟨0, 0, 0, 0, none⟩

/-- `validate_datetime` of a Python object, `src/input/input_python.rs:558-592`.  The new object
that `date_as_datetime` creates is represented by its value. -/
def PyTemporal.validateDatetime (sp : Speedate) (mul : MulMillion) (strict : Bool)
    (x : PyTemporal) : TMatch (Either DateTime) :=
  match x.kind with
  | .datetime true r => .ok (.py r, .exact)
  | .datetime false r => .ok (.py r, .strict)
  | k =>
    if strict then .error (.line (.other "datetime_type"))
    else
      match k with
      | .str none => .error (.line (.other "string_unicode"))
      | .str (some b) => matched .lax (parsed .raw "datetime_parsing" (sp.parseDateTime b))
      | .bytes b => matched .lax (parsed .raw "datetime_parsing" (sp.parseDateTime b))
      | .bool _ => .error (.line (.other "datetime_type"))
      | k =>
        match x.index with
        | some n => matched .lax (intAsDatetime sp n 0)
        | none =>
          match x.float with
          | some f => matched .lax (floatAsDatetime sp mul f)
          | none =>
            match k with
            | .date _ r =>
              match r.raw with
              | some d => .ok (.raw ⟨d, midnight⟩, .lax)
              | none => .error .internal
            | _ => .error (.line (.other "datetime_type"))

/-- `validate_timedelta` of a Python object, `src/input/input_python.rs:594-627`. -/
def PyTemporal.validateTimedelta (sp : Speedate) (mul : MulMillion) (strict : Bool)
    (x : PyTemporal) : TMatch EitherDelta :=
  match x.kind with
  | .delta (.exact d) => .ok (.exact d, .exact)
  | .delta d => .ok (d, .strict)
  | k =>
    if strict then .error (.line (.other "time_delta_type"))
    else
      match k with
      | .str none => .error (.line (.other "string_unicode"))
      | .str (some b) => matched .lax (parsed .raw "time_delta_parsing" (sp.parseDuration b))
      | .bytes b => matched .lax (parsed .raw "time_delta_parsing" (sp.parseDuration b))
      | _ =>
        match x.index with
        | some n => matched .lax (parsed .raw "time_delta_parsing" (intAsDuration n))
        | none =>
          match x.float with
          | some f => matched .lax (parsed .raw "time_delta_parsing" (floatAsDuration mul f))
          | none => .error (.line (.other "time_delta_type"))

/-- JSON values as the temporal readers see them (`JsonValue`); `other`: null, array, object. -/
inductive JsonTemporal where
  | str (b : List UInt8)
  | int (n : Int)
  | bigInt
  | float (f : F64)
  | bool (b : Bool)
  | other
  deriving DecidableEq, Repr

/-- `validate_date` of a JSON value, `src/input/input_json.rs:280-285`. -/
def JsonTemporal.validateDate (sp : Speedate) (_strict : Bool) : JsonTemporal → TMatch (Either Date)
  | .str b => matched .strict (parsed .raw "date_parsing" (sp.parseDate b))
  | _ => .error (.line (.other "date_type"))

/-- `validate_time` of a JSON value, `src/input/input_json.rs:286-310`. -/
def JsonTemporal.validateTime (sp : Speedate) (mul : MulMillion) (strict : Bool) :
    JsonTemporal → TMatch (Either Time)
  | .str b => matched .strict (parsed .raw "time_parsing" (sp.parseTime b))
  | .int n =>
    if !strict then matched .lax (intAsTime sp n 0) else .error (.line (.other "time_type"))
  | .float f =>
    if !strict then matched .lax (floatAsTime sp mul f) else .error (.line (.other "time_type"))
  | .bigInt =>
    if !strict then .error (.line (.other "time_parsing")) else .error (.line (.other "time_type"))
  | _ => .error (.line (.other "time_type"))

/-- `validate_datetime` of a JSON value, `src/input/input_json.rs:312-325`. -/
def JsonTemporal.validateDatetime (sp : Speedate) (mul : MulMillion) (strict : Bool) :
    JsonTemporal → TMatch (Either DateTime)
  | .str b => matched .strict (parsed .raw "datetime_parsing" (sp.parseDateTime b))
  | .int n =>
    if !strict then matched .lax (intAsDatetime sp n 0)
    else .error (.line (.other "datetime_type"))
  | .float f =>
    if !strict then matched .lax (floatAsDatetime sp mul f)
    else .error (.line (.other "datetime_type"))
  | _ => .error (.line (.other "datetime_type"))

/-- `validate_timedelta` of a JSON value, `src/input/input_json.rs:327-344`. -/
def JsonTemporal.validateTimedelta (sp : Speedate) (mul : MulMillion) (strict : Bool) :
    JsonTemporal → TMatch EitherDelta
  | .str b => matched .strict (parsed .raw "time_delta_parsing" (sp.parseDuration b))
  | .int n =>
    if !strict then matched .lax (parsed .raw "time_delta_parsing" (intAsDuration n))
    else .error (.line (.other "time_delta_type"))
  | .float f =>
    if !strict then matched .lax (parsed .raw "time_delta_parsing" (floatAsDuration mul f))
    else .error (.line (.other "time_delta_type"))
  | _ => .error (.line (.other "time_delta_type"))

/-! ### Validators -/

/-- The two readers a date or datetime validator uses. -/
structure Reader where
  date : Bool → TMatch (Either Date)
  datetime : Bool → TMatch (Either DateTime)

/-- `date_from_datetime`, `src/validators/date.rs:112-149`; `ok none`: not relevant. -/
def dateFromDatetime (x : Reader) : Except TErr (Option (Either Date)) :=
  match x.datetime false with
  | .ok (either, _) =>
    match either.asRaw with
    | none => .error .internal
    | some dt =>
      if dt.time = { midnight with tzOffset := dt.time.tzOffset } then .ok (some (.raw dt.date))
      else .error (.line (.other "date_from_datetime_inexact"))
  | .error (.line t) =>
    if t = .other "datetime_parsing" then .error (.line (.other "date_from_datetime_parsing"))
    else .ok none
  | .error .internal => .ok none

/-- `datetime_from_date`, `src/validators/datetime.rs:144-181`. -/
def datetimeFromDate (x : Reader) : Except TErr (Option (Either DateTime)) :=
  match x.date false with
  | .ok (either, _) =>
    match either.asRaw with
    | none => .error .internal
    | some d => .ok (some (.raw ⟨d, midnight⟩))
  | .error (.line t) =>
    if t = .other "date_parsing" then .error (.line (.other "datetime_from_date_parsing"))
    else .ok none
  | .error .internal => .ok none

/-- Reading with the fallback of lax mode: `src/validators/date.rs:48-57`,
`src/validators/datetime.rs:68-77`. -/
def readOr {α : Type} (strict : Bool) (main : TMatch α) (fallback : Except TErr (Option α)) :
    TMatch α :=
  match main with
  | .ok m => .ok m
  | .error (.line t) =>
    if strict then .error (.line t)
    else
      match fallback with
      | .error e => .error e
      | .ok (some a) => .ok (a, .lax)
      | .ok none => .error (.line t)
  | .error .internal => .error .internal

/-- `NowOp`, `src/validators/datetime.rs:225-228`. -/
inductive NowOp where
  | past
  | future
  deriving DecidableEq, Repr

/-- `NowOp::compare`, `src/validators/datetime.rs:231-237`. -/
def NowOp.compare : NowOp → Ordering → Bool
  | op, .lt => op = .past
  | _, .eq => false
  | op, .gt => op = .future

/-- `TZConstraint`, `src/validators/datetime.rs:282-285`. -/
inductive TzConstraint where
  | naive
  | aware (offset : Option Int)
  deriving DecidableEq, Repr

/-- `TZConstraint::tz_check`, `src/validators/datetime.rs:311-331`; `none` is success. -/
def TzConstraint.check : TzConstraint → Option Int → Option ErrType
  | .aware _, none => some (.other "timezone_aware")
  | .aware (some e), some a => if e ≠ a then some (.other "timezone_offset") else none
  | .naive, some _ => some (.other "timezone_naive")
  | _, _ => none

/-- `DateTimeConstraints`, `DateConstraints`, `TimeConstraints`:
`src/validators/datetime.rs:184-191`, `src/validators/date.rs:152-158`,
`src/validators/time.rs:97-103`.  `now` comes with the current instant. -/
structure Constraints (α : Type) where
  le : Option α
  lt : Option α
  ge : Option α
  gt : Option α
  now : Option (NowOp × α)
  tz : Option TzConstraint

/-- `PartialOrd::le` and its kin on what `partial_cmp` gives. -/
def ordLe (o : Option Ordering) : Bool := o = some .lt || o = some .eq
/-- `PartialOrd::ge`. -/
def ordGe (o : Option Ordering) : Bool := o = some .gt || o = some .eq

/-- One bound: `check_constraint!`, `src/validators/datetime.rs:91-105`. -/
def bound {α : Type} (c : Option α) (holds : α → Bool) (err : String) : Option ErrType :=
  match c with
  | none => none
  | some b => if holds b then none else some (.other err)

/-- The errors of `now_op` in a date schema, `src/validators/date.rs:92-95`. -/
def dateNowErr : NowOp → String
  | .past => "date_past"
  | .future => "date_future"

/-- The errors of `now_op` in a datetime schema, `src/validators/datetime.rs:121-124`. -/
def datetimeNowErr : NowOp → String
  | .past => "datetime_past"
  | .future => "datetime_future"

/-- The checks in order, `src/validators/datetime.rs:107-132`, `src/validators/date.rs:77-99`,
`src/validators/time.rs:72-79`; `none` is success. -/
def Constraints.check {α : Type} (nowErr : NowOp → String) (c : Constraints α)
    (cmp : α → α → Option Ordering) (tzOf : α → Option Int) (a : α) : Option ErrType :=
  (bound c.le (fun b => ordLe (cmp a b)) "less_than_equal").or <|
  (bound c.lt (fun b => cmp a b = some .lt) "less_than").or <|
  (bound c.ge (fun b => ordGe (cmp a b)) "greater_than_equal").or <|
  (bound c.gt (fun b => cmp a b = some .gt) "greater_than").or <|
  (match c.now with
    | none => none
    | some (op, now) =>
      match cmp a now with
      | some o =>
        if op.compare o then none
        else some (ErrType.other (nowErr op))
      | none => none).or <|
  match c.tz with
  | none => none
  | some tz => tz.check (tzOf a)

/-- Checking optional constraints on what `as_raw` gives (`src/validators/datetime.rs:78-90`,
`src/validators/date.rs:58-59`): a failing `as_raw` is an error only if there are constraints. -/
def checkAll {α : Type} (nowErr : NowOp → String) (c : Option (Constraints α)) (cmp : α → α → Option Ordering)
    (tzOf : α → Option Int) (rawErr : TErr) (e : Either α) : Option TErr :=
  match c with
  | none => none
  | some c =>
    match e.asRaw with
    | none => some rawErr
    | some a => (c.check nowErr cmp tzOf a).map TErr.line

/-- `EitherDate::try_into_py`, `EitherDateTime::try_into_py`: year 0 has no Python object,
`src/input/datetime.rs:52-69,289-316`.  A raw result is represented by its value; the
constructor of a Python object is assumed to accept what speedate produces. -/
def tryIntoPy {α : Type} (yearOf : α → Nat) (err : String) : Either α → Except TErr (Either α)
  | .raw a => if yearOf a = 0 then .error (.line (.other err)) else .ok (.raw a)
  | .py r => .ok (.py r)

/-- `DateValidator::validate`, `src/validators/date.rs:42-101`. -/
def validateDate (strict : Bool) (c : Option (Constraints Date))
    (cmp : Date → Date → Option Ordering) (x : Reader) : TMatch (Either Date) :=
  match readOr strict (x.date strict) (dateFromDatetime x) with
  | .error e => .error e
  | .ok (d, ex) =>
    match checkAll dateNowErr c cmp (fun _ => none) .internal d with
    | some e => .error e
    | none => matched ex (tryIntoPy Date.year "date_parsing" d)

/-- `DateTimeValidator::validate`, `src/validators/datetime.rs:62-135`. -/
def validateDatetime (strict : Bool) (c : Option (Constraints DateTime))
    (cmp : DateTime → DateTime → Option Ordering) (x : Reader) : TMatch (Either DateTime) :=
  match readOr strict (x.datetime strict) (datetimeFromDate x) with
  | .error e => .error e
  | .ok (d, ex) =>
    match checkAll datetimeNowErr c cmp (fun dt => dt.time.tzOffset)
        (.line (.other "datetime_object_invalid")) d with
    | some e => .error e
    | none => matched ex (tryIntoPy (fun dt => dt.date.year) "datetime_parsing" d)

/-- `TimeValidator::validate`, `src/validators/time.rs:44-82`.  A time schema has no `now_op`. -/
def validateTime (c : Option (Constraints Time)) (cmp : Time → Time → Option Ordering)
    (read : TMatch (Either Time)) : TMatch (Either Time) :=
  match read with
  | .error e => .error e
  | .ok (t, ex) =>
    match checkAll datetimeNowErr c cmp (fun t => t.tzOffset) .internal t with
    | some e => .error e
    | none => .ok (t, ex)

/-- Signed microseconds of a duration; `speedate::Duration`'s `PartialOrd` compares by this value
(assumed). -/
def Duration.signed (d : Duration) : Int :=
  (if d.positive then 1 else -1) * (((d.day : Int) * 86400 + d.second) * 1000000 + d.microsecond)

/-- `pytimedelta_subclass_as_duration`, `src/input/datetime.rs:171-185`. -/
def subclassToDuration (mul : MulMillion) : Option F64 → Option Duration
  | none => none
  | some f => floatAsDuration mul f

/-- `EitherTimedelta::to_duration`, `src/input/datetime.rs:126-132`; `none`: an exception. -/
def EitherDelta.toDuration (mul : MulMillion) : EitherDelta → Option Duration
  | .raw d => some d
  | .exact d => deltaToDuration d
  | .sub _ f => subclassToDuration mul f

/-- The Python object of an `EitherTimedelta`, `src/input/datetime.rs:110-116`. -/
def EitherDelta.toPy : EitherDelta → Option Delta
  | .raw d => durationToDelta d
  | .exact d => some d
  | .sub d _ => some d

/-- `TimedeltaConstraints`, `src/validators/timedelta.rs:22-27`. -/
structure DeltaBounds where
  le : Option Duration
  lt : Option Duration
  ge : Option Duration
  gt : Option Duration

/-- `TimeDeltaValidator::validate`, `src/validators/timedelta.rs:73-109`. -/
def validateTimedelta (mul : MulMillion) (c : Option DeltaBounds) (read : TMatch EitherDelta) :
    TMatch Delta :=
  match read with
  | .error e => .error e
  | .ok (d, ex) =>
    match d.toPy with
    | none => .error .internal
    | some py =>
      match c with
      | none => .ok (py, ex)
      | some c =>
        match d.toDuration mul with
        | none => .error .internal
        | some r =>
          match
            (bound c.le (fun b => r.signed ≤ b.signed) "less_than_equal").or <|
            (bound c.lt (fun b => r.signed < b.signed) "less_than").or <|
            (bound c.ge (fun b => r.signed ≥ b.signed) "greater_than_equal").or <|
            (bound c.gt (fun b => r.signed > b.signed) "greater_than")
          with
          | some t => .error (.line t)
          | none => .ok (py, ex)

/-! ### Time zones -/

/-- Wrapping `i32::abs` (release builds): the smallest `i32` has no absolute value. -/
def wrapAbs (n : Int32) : Int32 := if n < 0 then -n else n

/-- `TryFrom<i32> for TzInfo`, `src/input/datetime.rs:631-643`; `none` is the `ValueError`.  In a
debug build the smallest `i32` panics instead. -/
def tzTryFrom (seconds : Int32) : Option Int32 :=
  if wrapAbs seconds ≥ 86400 then none else some seconds

/-- `TzInfo::py_new`, `src/input/datetime.rs:552-554`: the float is truncated and cast, saturating
(`NaN` gives 0). -/
def tzNew (seconds : F64) : Option Int32 :=
  match seconds with
  | .nan => tzTryFrom 0
  | .posInf => tzTryFrom (Int32.ofInt (2 ^ 31 - 1))
  | .negInf => tzTryFrom (Int32.ofInt (-(2 ^ 31)))
  | .fin num k =>
    tzTryFrom (Int32.ofInt (max (-(2 ^ 31)) (min (num.tdiv (2 ^ k)) (2 ^ 31 - 1))))

/-- Decimal digits with at least two places: Rust's `{:02}`. -/
def pad2 (n : Nat) : List Char := if n < 10 then '0' :: Nat.toDigits 10 n else Nat.toDigits 10 n

/-- `TzInfo::__str__`, `src/input/datetime.rs:580-598`.  Division and remainder truncate. -/
def tzStr (seconds : Int) : List Char :=
  if seconds = 0 then ['U', 'T', 'C']
  else
    let mins := seconds.tdiv 60
    let secs := seconds.tmod 60
    let result := (if seconds ≥ 0 then '+' else '-') :: pad2 (mins.tdiv 60).natAbs ++
      ':' :: pad2 (mins.tmod 60).natAbs
    if secs ≠ 0 then result ++ ':' :: pad2 secs.natAbs else result

/-- `TzInfo::__richcmp__` with another `tzinfo` whose `utcoffset(None)` is `offset` microseconds
(`none`: it returned `None`, and the result is `NotImplemented`),
`src/input/datetime.rs:606-619`.  The conversion to seconds rounds half away from zero. -/
def tzCmp (seconds : Int) : Option Int → Option Ordering
  | none => none
  | some us =>
    let rounded := if us ≥ 0 then (us + 500000) / 1000000 else -((-us + 500000) / 1000000)
    some (compare seconds rounded)

/-- `TzInfo::utcoffset`, `src/input/datetime.rs:557-559`. -/
def tzUtcoffset (seconds : Int) : Option Delta := Delta.new 0 seconds 0

end PC.Time
