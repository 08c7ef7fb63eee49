import Verif.Model.Numbers

/-
Model of reading a string as an integer or a bool, `src/input/shared.rs`.  A `&str` is a list of
characters; the code compares byte lengths only of a string with a slice of itself, for which
comparing numbers of characters is the same.
-/

namespace PC.IntParse
open PC.Num

/-- `char::is_ascii_digit`. -/
def isDigit (c : Char) : Bool := decide ('0' ≤ c ∧ c ≤ '9')

/-- `char::is_whitespace` (the Unicode property `White_Space`), used by `str::trim`. -/
def isSpace (c : Char) : Bool :=
  (9 ≤ c.toNat && c.toNat ≤ 13) || c.toNat == 32 || c.toNat == 0x85 || c.toNat == 0xA0 ||
  c.toNat == 0x1680 || (0x2000 ≤ c.toNat && c.toNat ≤ 0x200A) || c.toNat == 0x2028 ||
  c.toNat == 0x2029 || c.toNat == 0x202F || c.toNat == 0x205F || c.toNat == 0x3000

/-- `str::trim_end`. -/
def trimEnd (s : List Char) : List Char := (s.reverse.dropWhile isSpace).reverse

/-- `str::trim`. -/
def trim (s : List Char) : List Char := trimEnd (s.dropWhile isSpace)

/-- The value of a string of digits. -/
def digitsVal (ds : List Char) : Nat := ds.foldl (fun n c => n * 10 + (c.toNat - 48)) 0

/-- What `NumberInt::try_from` says of a string. -/
inductive Jiter where
  | ok (n : Int)
  | outOfRange
  | invalid
  deriving DecidableEq, Repr

/-- The unsigned part of `jiterInt`; `len` is the length of the whole string. -/
def jiterDigits (len : Nat) (ds : List Char) : Option (Except Unit Nat) :=
  match ds with
  | [] => none
  | c :: rest =>
    if c = '0' then (if rest.isEmpty then some (.ok 0) else none)
    else if ds.all isDigit then
      (if len > 4300 then some (.error ()) else some (.ok (digitsVal ds)))
    else none

/-- `NumberInt::try_from` of the `jiter` crate, called at `src/input/shared.rs:79,90`.  The crate
is not part of the repository: this is the JSON grammar of integers, an optional minus sign and
digits without superfluous leading zeros, with the limit of 4300 documented at
`src/input/shared.rs:73-76`. -/
def jiterInt (s : List Char) : Jiter :=
  match s with
  | '-' :: ds =>
    match jiterDigits s.length ds with
    | some (.ok n) => .ok (-(n : Int))
    | some (.error ()) => .outOfRange
    | none => .invalid
  | ds =>
    match jiterDigits s.length ds with
    | some (.ok n) => .ok n
    | some (.error ()) => .outOfRange
    | none => .invalid

/-- `str::contains("__")`. -/
def hasDouble : List Char → Bool
  | '_' :: '_' :: _ => true
  | _ :: rest => hasDouble rest
  | [] => false

/-- `strip_underscores`, `src/input/shared.rs:57-70`. -/
def stripUnderscores (s : List Char) : Option (List Char) :=
  if s.head? = some '_' ∨ s.getLast? = some '_' ∨ s.contains '_' = false ∨ hasDouble s then none
  else some (s.filter (· ≠ '_'))

/-- The loop of `strip_leading_zeros`, `src/input/shared.rs:185-199`; `prev` is the character
before. -/
def stripZerosFrom (prev : Char) : List Char → Option (List Char)
  | [] => some [prev]
  | c :: rest =>
    if c = '0' ∨ c = '_' then stripZerosFrom c rest
    else if ('1' ≤ c ∧ c ≤ '9') ∨ c = '-' then some (c :: rest)
    else if c = '.' then some (prev :: c :: rest)
    else none

/-- `strip_leading_zeros`, `src/input/shared.rs:171-200`. -/
def stripLeadingZeros : List Char → Option (List Char)
  | [] => none
  | c :: rest =>
    if c = '0' then stripZerosFrom '0' rest
    else if ('1' ≤ c ∧ c ≤ '9') ∨ c = '-' then some (c :: rest)
    else none

/-- Removal of a fractional part made of zeros, `src/input/shared.rs:144-151`. -/
def stripZeroFraction (s : List Char) : List Char :=
  match s.dropWhile (· ≠ '.') with
  | [] => s
  | _ :: decimal =>
    if !decimal.isEmpty && decimal.all (· = '0') then s.takeWhile (· ≠ '.') else s

/-- `clean_int_str` after the sign, `src/input/shared.rs:141-169`. -/
def cleanUnsigned (lenBefore : Nat) (negative : Bool) (s : List Char) : Option (List Char) :=
  match stripLeadingZeros s with
  | none => none
  | some s =>
    let s := stripZeroFraction s
    match stripUnderscores s with
    | some stripped => some (if negative then '-' :: stripped else stripped)
    | none =>
      if lenBefore = s.length then none
      else some (if negative then '-' :: s else s)

/-- `clean_int_str` after the optional plus sign, `src/input/shared.rs:125-139`. -/
def cleanMinus (lenBefore : Nat) (s : List Char) : Option (List Char) :=
  match s with
  | '-' :: suffix =>
    if suffix.head? = some '-' ∨ suffix.head? = some '+' then none
    else cleanUnsigned lenBefore true suffix
  | s => cleanUnsigned lenBefore false s

/-- `clean_int_str`, `src/input/shared.rs:111-169`. -/
def cleanIntStr (s : List Char) : Option (List Char) :=
  match trim s with
  | '+' :: suffix => if suffix.head? = some '-' then none else cleanMinus s.length suffix
  | t => cleanMinus s.length t

/-- `str_as_int`, `src/input/shared.rs:77-98`. -/
def strAsInt (s : List Char) : Checked Int :=
  match jiterInt s with
  | .ok n => .ok n
  | .outOfRange => .err (.other "int_parsing_size")
  | .invalid =>
    match cleanIntStr s with
    | some cleaned =>
      match jiterInt cleaned with
      | .ok n => .ok n
      | _ => .err (.other "int_parsing")
    | none => .err (.other "int_parsing")

/-- `char::to_ascii_lowercase`, used by `str::eq_ignore_ascii_case`. -/
def asciiLower (c : Char) : Char := if 'A' ≤ c ∧ c ≤ 'Z' then Char.ofNat (c.toNat + 32) else c

/-- `str::eq_ignore_ascii_case`. -/
def eqIgnoreCase (a b : List Char) : Bool := decide (a.map asciiLower = b.map asciiLower)

/-- `str_as_bool`, `src/input/shared.rs:25-45`. -/
def strAsBool (s : List Char) : Checked Bool :=
  if s = ['0'] || eqIgnoreCase s "f".toList || eqIgnoreCase s "n".toList ||
      eqIgnoreCase s "no".toList || eqIgnoreCase s "off".toList || eqIgnoreCase s "false".toList then
    .ok false
  else if s = ['1'] || eqIgnoreCase s "t".toList || eqIgnoreCase s "y".toList ||
      eqIgnoreCase s "on".toList || eqIgnoreCase s "yes".toList || eqIgnoreCase s "true".toList then
    .ok true
  else .err (.other "bool_parsing")

/-- `int_as_bool`, `src/input/shared.rs:47-55`. -/
def intAsBool (n : Int) : Checked Bool :=
  if n = 0 then .ok false else if n = 1 then .ok true else .err (.other "bool_parsing")

end PC.IntParse
