import Verif.Model.Inputs
import Verif.Model.Truncate

/-
Bytes in JSON: how they are written (`src/serializers/config.rs`) and read (`src/validators/config.rs`).

The crates `base64` 0.22 and `hex` 0.4 are not part of the repository; what is written here about them is
their documented behaviour (alphabets of RFC 4648, padding checked by `DecodePaddingMode::Indifferent`,
no stray bits in the last symbol, upper and lower case hexadecimal digits).
-/

namespace PC.Bytes

/-! ### The crate `base64` -/

/-- `base64::alphabet::Alphabet`: the 64 symbols are `A`–`Z`, `a`–`z`, `0`–`9` and two more. -/
structure Alphabet where
  c62 : UInt8
  c63 : UInt8

/-- `base64::alphabet::URL_SAFE`: `-` and `_`. -/
def urlSafe : Alphabet := ⟨45, 95⟩

/-- `base64::alphabet::STANDARD`: `+` and `/`. -/
def standard : Alphabet := ⟨43, 47⟩

/-- The padding symbol `=`. -/
def pad : UInt8 := 61

/-- The symbol for a number below 64. -/
def Alphabet.sym (a : Alphabet) (i : Nat) : UInt8 :=
  if i < 26 then UInt8.ofNat (65 + i)
  else if i < 52 then UInt8.ofNat (97 + (i - 26))
  else if i < 62 then UInt8.ofNat (48 + (i - 52))
  else if i = 62 then a.c62
  else a.c63

/-- The decode table: the number of a symbol. -/
def Alphabet.val (a : Alphabet) (b : UInt8) : Option Nat :=
  (List.range 64).find? (fun i => a.sym i == b)

/-- `Engine::encode` with padding. -/
def encode64 (a : Alphabet) : List UInt8 → List UInt8
  | [] => []
  | [x] => [a.sym (x.toNat / 4), a.sym (x.toNat % 4 * 16), pad, pad]
  | [x, y] =>
    [a.sym (x.toNat / 4), a.sym (x.toNat % 4 * 16 + y.toNat / 16), a.sym (y.toNat % 16 * 4), pad]
  | x :: y :: z :: rest =>
    a.sym (x.toNat / 4) :: a.sym (x.toNat % 4 * 16 + y.toNat / 16)
      :: a.sym (y.toNat % 16 * 4 + z.toNat / 64) :: a.sym (z.toNat % 64) :: encode64 a rest

/-- `base64::DecodeError`. -/
inductive DErr where
  | invalidByte (index : Nat) (b : UInt8)
  | invalidLength (n : Nat)
  | invalidLastSymbol (index : Nat) (b : UInt8)
  deriving DecidableEq

/-- The loop over the last one to four bytes: `pads` counts the padding seen, `first` is the offset of the
first; `off` is the offset of the next byte; `vals` collects the numbers of the symbols. -/
def suffixLoop (a : Alphabet) (start : Nat) :
    List UInt8 → (off pads first : Nat) → List Nat → Except DErr (List Nat)
  | [], _, _, _, vals => .ok vals
  | b :: rest, off, pads, first, vals =>
    if b = pad then
      if off < 2 then .error (.invalidByte (start + off) b)
      else suffixLoop a start rest (off + 1) (pads + 1) (if pads = 0 then off else first) vals
    else if pads > 0 then .error (.invalidByte (start + first) pad)
    else
      match a.val b with
      | none => .error (.invalidByte (start + off) b)
      | some v => suffixLoop a start rest (off + 1) pads first (vals ++ [v])

/-- The last one to four bytes, and the check that the last symbol has no stray bits. -/
def decodeSuffix (a : Alphabet) (l : List UInt8) (start : Nat) : Except DErr (List UInt8) :=
  match suffixLoop a start l 0 0 0 [] with
  | .error e => .error e
  | .ok [] => if l.isEmpty then .ok [] else .error (.invalidLength start)
  | .ok [_] => .error (.invalidLength (start + 1))
  | .ok [v, w] =>
    if w % 16 = 0 then .ok [UInt8.ofNat (v * 4 + w / 16)]
    else .error (.invalidLastSymbol (start + 1) (a.sym w))
  | .ok [v, w, x] =>
    if x % 4 = 0 then .ok [UInt8.ofNat (v * 4 + w / 16), UInt8.ofNat (w % 16 * 16 + x / 4)]
    else .error (.invalidLastSymbol (start + 2) (a.sym x))
  | .ok (v :: w :: x :: y :: _) =>
    .ok [UInt8.ofNat (v * 4 + w / 16), UInt8.ofNat (w % 16 * 16 + x / 4), UInt8.ofNat (x % 4 * 64 + y)]

/-- The complete quads before the last, then the rest. -/
def decodeFrom (a : Alphabet) : List UInt8 → Nat → Except DErr (List UInt8)
  | p :: q :: r :: s :: t :: rest, i =>
    match a.val p with
    | none => .error (.invalidByte i p)
    | some v =>
      match a.val q with
      | none => .error (.invalidByte (i + 1) q)
      | some w =>
        match a.val r with
        | none => .error (.invalidByte (i + 2) r)
        | some x =>
          match a.val s with
          | none => .error (.invalidByte (i + 3) s)
          | some y =>
            match decodeFrom a (t :: rest) (i + 4) with
            | .error e => .error e
            | .ok bs =>
              .ok (UInt8.ofNat (v * 4 + w / 16) :: UInt8.ofNat (w % 16 * 16 + x / 4)
                :: UInt8.ofNat (x % 4 * 64 + y) :: bs)
  | l, i => decodeSuffix a l i

/-- A single left-over byte that is neither a symbol nor padding is reported before anything else. -/
def badTrailing (a : Alphabet) (l : List UInt8) : Option UInt8 :=
  if l.length % 4 = 1 then
    match l.getLast? with
    | some b => if b ≠ pad ∧ a.val b = none then some b else none
    | none => none
  else none

/-- `Engine::decode` with `DecodePaddingMode::Indifferent`. -/
def decode64 (a : Alphabet) (l : List UInt8) : Except DErr (List UInt8) :=
  match badTrailing a l with
  | some b => .error (.invalidByte (l.length - 1) b)
  | none => decodeFrom a l 0

/-! ### The crate `hex` -/

/-- A hexadecimal digit, in lower case. -/
def hexDigit (n : Nat) : UInt8 := if n < 10 then UInt8.ofNat (48 + n) else UInt8.ofNat (87 + n)

/-- `format!("{b:02x}")`, also `hex::encode` for one byte. -/
def hexByte (b : UInt8) : List UInt8 := [hexDigit (b.toNat / 16), hexDigit (b.toNat % 16)]

/-- The value of a hexadecimal digit of either case. -/
def hexVal (b : UInt8) : Option Nat :=
  if 48 ≤ b.toNat ∧ b.toNat ≤ 57 then some (b.toNat - 48)
  else if 97 ≤ b.toNat ∧ b.toNat ≤ 102 then some (b.toNat - 87)
  else if 65 ≤ b.toNat ∧ b.toNat ≤ 70 then some (b.toNat - 55)
  else none

/-- `hex::FromHexError`. -/
inductive HErr where
  | oddLength
  | invalidChar (index : Nat) (b : UInt8)
  deriving DecidableEq

/-- The pairs of digits. -/
def hexPairs : List UInt8 → Nat → Except HErr (List UInt8)
  | p :: q :: rest, i =>
    match hexVal p with
    | none => .error (.invalidChar i p)
    | some v =>
      match hexVal q with
      | none => .error (.invalidChar (i + 1) q)
      | some w =>
        match hexPairs rest (i + 2) with
        | .error e => .error e
        | .ok bs => .ok (UInt8.ofNat (v * 16 + w) :: bs)
  | _, _ => .ok []

/-- `hex::decode`. -/
def hexDecode (l : List UInt8) : Except HErr (List UInt8) :=
  if l.length % 2 = 1 then .error .oddLength else hexPairs l 0

/-! ### The repository -/

/-- `BytesMode`, `src/serializers/config.rs:94-100`. -/
inductive Mode where
  | utf8
  | base64
  | hex
  deriving DecidableEq

/-- A text whose bytes are all ASCII: `String` from the bytes the encoders produce. -/
def asciiText (l : List UInt8) : List Char := l.map (fun b => Char.ofNat b.toNat)

/-- `BytesMode::bytes_to_string`, `src/serializers/config.rs:167-177`. `fromUtf8` is
`std::str::from_utf8`; `none` is the `UnicodeDecodeError`. -/
def bytesToString (fromUtf8 : List UInt8 → Option (List Char)) (m : Mode) (bytes : List UInt8) :
    Option (List Char) :=
  match m with
  | .utf8 => fromUtf8 bytes
  | .base64 => some (asciiText (encode64 urlSafe bytes))
  | .hex => some (asciiText (bytes.foldl (fun acc b => acc ++ hexByte b) []))

/-- `BytesMode::serialize_bytes`, `src/serializers/config.rs:179-188`: the string handed to the JSON
writer. -/
def serializeBytes (fromUtf8 : List UInt8 → Option (List Char)) (m : Mode) (bytes : List UInt8) :
    Option (List Char) :=
  match m with
  | .utf8 => fromUtf8 bytes
  | .base64 => some (asciiText (encode64 urlSafe bytes))
  | .hex => some (asciiText (bytes.flatMap hexByte))

/-- The base64 case of `ValBytesMode::deserialize_string`, `src/validators/config.rs:42-53`. -/
def decodeEither (l : List UInt8) : Except DErr (List UInt8) :=
  match decode64 urlSafe l with
  | .ok bs => .ok bs
  | .error (.invalidByte i b) =>
    if b = 47 ∨ b = 43 then decode64 standard l else .error (.invalidByte i b)
  | .error e => .error e

/-- `ValBytesMode::deserialize_string`, `src/validators/config.rs:39-63`. The text of the decoding error is
left out. -/
def deserialize (m : Mode) (s : List Char) : Except ErrType (List UInt8) :=
  match m with
  | .utf8 => .ok (Trunc.encode s)
  | .base64 =>
    match decodeEither (Trunc.encode s) with
    | .ok bs => .ok bs
    | .error _ => .error (.other "bytes_invalid_encoding")
  | .hex =>
    match hexDecode (Trunc.encode s) with
    | .ok bs => .ok bs
    | .error _ => .error (.other "bytes_invalid_encoding")

end PC.Bytes
