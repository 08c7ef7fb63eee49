/-
Truncation of the input shown in error messages, on UTF-8 bytes.

A Rust `&str` is the list of bytes of its UTF-8 encoding.  `none` stands for a panic, and for the undefined
behaviour of `unwrap_unchecked` on `None`.
-/

namespace PC.Trunc

/-- The bytes of a string (`str::as_bytes`). -/
def encode (s : List Char) : List UInt8 := s.flatMap String.utf8EncodeChar

/-- `is_utf8_char_boundary`, `src/tools.rs:162-165`. -/
def isUtf8CharBoundary (b : UInt8) : Bool := decide (b.toInt8 ≥ -0x40)

/-- `Iterator::rposition` of the standard library: position of the last element satisfying `p`. -/
def rposition {γ : Type} (p : γ → Bool) (l : List γ) : Option Nat :=
  (l.reverse.findIdx? p).map (fun i => l.length - 1 - i)

/-- `&bytes[lo..hi]`, a panic unless `lo ≤ hi ≤ len`. -/
def byteSlice (bytes : List UInt8) (lo hi : Nat) : Option (List UInt8) :=
  if lo ≤ hi ∧ hi ≤ bytes.length then some ((bytes.take hi).drop lo) else none

/-- `str::is_char_boundary` of the standard library. -/
def isCharBoundary (bytes : List UInt8) (i : Nat) : Bool :=
  if i = 0 then true
  else
    match bytes[i]? with
    | some b => isUtf8CharBoundary b
    | none => i == bytes.length

/-- `&val[lo..hi]` on a `&str`: a panic also unless both ends are character boundaries. -/
def strSlice (bytes : List UInt8) (lo hi : Nat) : Option (List UInt8) :=
  if isCharBoundary bytes lo && isCharBoundary bytes hi then byteSlice bytes lo hi else none

/-- `floor_char_boundary`, `src/tools.rs:167-179`. -/
def floorCharBoundary (bytes : List UInt8) (index : Nat) : Option Nat :=
  if index ≥ bytes.length then some bytes.length
  else
    let lowerBound := index - 3
    match byteSlice bytes lowerBound (index + 1) with
    | none => none
    | some sl => (rposition isUtf8CharBoundary sl).map (lowerBound + ·)

/-- `ceil_char_boundary`, `src/tools.rs:181-187`. -/
def ceilCharBoundary (bytes : List UInt8) (index : Nat) : Option Nat :=
  let upperBound := min (index + 4) bytes.length
  match byteSlice bytes index upperBound with
  | none => none
  | some sl =>
    match sl.findIdx? isUtf8CharBoundary with
    | some pos => some (pos + index)
    | none => some upperBound

/-- The three dots. -/
def dots : List UInt8 := encode ['.', '.', '.']

/-- `write_truncated_to_limited_bytes`, `src/tools.rs:189-201`: the bytes written. `max_len.div_ceil(2)` is
`(maxLen + 1) / 2`; `mid_point - 1` underflows (a panic in debug builds; in release builds the wrapped index
then makes the slice in `ceil_char_boundary` panic) when `max_len` is 0. -/
def writeTruncated (val : List UInt8) (maxLen : Nat) : Option (List UInt8) :=
  if val.length > maxLen then
    let midPoint := (maxLen + 1) / 2
    if midPoint = 0 then none
    else
      match floorCharBoundary val midPoint with
      | none => none
      | some f =>
        match strSlice val 0 f with
        | none => none
        | some a =>
          match ceilCharBoundary val (val.length - (midPoint - 1)) with
          | none => none
          | some c =>
            match strSlice val c val.length with
            | none => none
            | some b => some (a ++ dots ++ b)
  else some val

end PC.Trunc
