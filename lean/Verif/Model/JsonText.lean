import Verif.Model.Infer
import Verif.Model.Truncate

/-
The writer of JSON text: `src/serializers/ser.rs`, and the formatters of `serde_json` it drives.

The writer is a `Vec<u8>`, so writing never fails; `none` stands for a panic.
-/

namespace PC.JsonText
open PC.Float (F64)
open PC.Infer (Text Json)
open PC.Trunc (encode strSlice)

/-- What is given to the writer: the calls of `serde` a serialisation makes. `seq` and `map` carry the length announced
to `serialize_seq` and `serialize_map`. -/
inductive Doc where
  | null
  | bool (b : Bool)
  | int (i : Int)
  | float (f : F64)
  | str (t : Text)
  | seq (len : Option Nat) (xs : List Doc)
  | map (len : Option Nat) (es : List (Text × Doc))

/-- The formatter, chosen by `indent` in `to_json_bytes`, `src/serializers/shared.rs:353-381`. -/
inductive Fmt where
  | compact
  | pretty (indent : Nat)

/-- The formatter's state (`current_indent`, `has_value` of `PrettyFormatter`) and what has been written. -/
structure W where
  indent : Nat
  hasValue : Bool
  out : List UInt8

/-- `write_all`. -/
def W.write (w : W) (bs : List UInt8) : W := { w with out := w.out ++ bs }

/-- `indent` of `serde_json`, called with the string made in `src/serializers/shared.rs:367`: `n` spaces for each level. -/
def W.writeIndent (w : W) (n : Nat) : W := w.write (List.replicate (w.indent * n) 0x20)

/-- `Formatter::begin_array` and `begin_object` of `serde_json` (assumed: its source is not part of the repository). -/
def beginGroup (f : Fmt) (open_ : UInt8) (w : W) : W :=
  match f with
  | .compact => w.write [open_]
  | .pretty _ => { w with indent := w.indent + 1, hasValue := false }.write [open_]

/-- `Formatter::end_array` and `end_object` of `serde_json` (assumed). -/
def endGroup (f : Fmt) (close : UInt8) (w : W) : W :=
  match f with
  | .compact => w.write [close]
  | .pretty n =>
    let w := { w with indent := w.indent - 1 }
    if w.hasValue then ((w.write [0x0a]).writeIndent n).write [close] else w.write [close]

/-- `Formatter::begin_array_value` and `begin_object_key` of `serde_json` (assumed). -/
def beginItem (f : Fmt) (first : Bool) (w : W) : W :=
  match f with
  | .compact => if first then w else w.write [0x2c]
  | .pretty n => (w.write (if first then [0x0a] else [0x2c, 0x0a])).writeIndent n

/-- `Formatter::begin_object_value` of `serde_json` (assumed). -/
def beginValue (f : Fmt) (w : W) : W :=
  match f with
  | .compact => w.write [0x3a]
  | .pretty _ => w.write [0x3a, 0x20]

/-- `Formatter::end_array_value` and `end_object_value` of `serde_json` (assumed). -/
def endItem (f : Fmt) (w : W) : W :=
  match f with
  | .compact => w
  | .pretty _ => { w with hasValue := true }

/-- `ESCAPE`, `src/serializers/ser.rs:732-750`. -/
def escapeTable : List UInt8 := [
   117, 117, 117, 117, 117, 117, 117, 117, 98, 116, 110, 117, 102, 114, 117, 117,
   117, 117, 117, 117, 117, 117, 117, 117, 117, 117, 117, 117, 117, 117, 117, 117,
   0, 0, 34, 0, 0, 0, 0, 0, 0, 0, 0, 0, 0, 0, 0, 0,
   0, 0, 0, 0, 0, 0, 0, 0, 0, 0, 0, 0, 0, 0, 0, 0,
   0, 0, 0, 0, 0, 0, 0, 0, 0, 0, 0, 0, 0, 0, 0, 0,
   0, 0, 0, 0, 0, 0, 0, 0, 0, 0, 0, 0, 92, 0, 0, 0,
   0, 0, 0, 0, 0, 0, 0, 0, 0, 0, 0, 0, 0, 0, 0, 0,
   0, 0, 0, 0, 0, 0, 0, 0, 0, 0, 0, 0, 0, 0, 0, 0,
   0, 0, 0, 0, 0, 0, 0, 0, 0, 0, 0, 0, 0, 0, 0, 0,
   0, 0, 0, 0, 0, 0, 0, 0, 0, 0, 0, 0, 0, 0, 0, 0,
   0, 0, 0, 0, 0, 0, 0, 0, 0, 0, 0, 0, 0, 0, 0, 0,
   0, 0, 0, 0, 0, 0, 0, 0, 0, 0, 0, 0, 0, 0, 0, 0,
   0, 0, 0, 0, 0, 0, 0, 0, 0, 0, 0, 0, 0, 0, 0, 0,
   0, 0, 0, 0, 0, 0, 0, 0, 0, 0, 0, 0, 0, 0, 0, 0,
   0, 0, 0, 0, 0, 0, 0, 0, 0, 0, 0, 0, 0, 0, 0, 0,
   0, 0, 0, 0, 0, 0, 0, 0, 0, 0, 0, 0, 0, 0, 0, 0]

/-- `CharEscape` of `serde_json`, as made by `from_escape_table`. -/
inductive CharEscape where
  | backspace | tab | lineFeed | formFeed | carriageReturn | quote | reverseSolidus
  | asciiControl (b : UInt8)

/-- `CharEscape::from_escape_table`, `src/serializers/ser.rs:766-779`; `none` is `unreachable!()`. -/
def fromEscapeTable (escape byte : UInt8) : Option CharEscape :=
  if escape = 98 then some .backspace
  else if escape = 116 then some .tab
  else if escape = 110 then some .lineFeed
  else if escape = 102 then some .formFeed
  else if escape = 114 then some .carriageReturn
  else if escape = 34 then some .quote
  else if escape = 92 then some .reverseSolidus
  else if escape = 117 then some (.asciiControl byte)
  else none

/-- `HEX_DIGITS` of `serde_json` (assumed). -/
def hexDigits : List UInt8 := [48, 49, 50, 51, 52, 53, 54, 55, 56, 57, 97, 98, 99, 100, 101, 102]

/-- `Formatter::write_char_escape` of `serde_json` (assumed). -/
def charEscape : CharEscape → List UInt8
  | .backspace => [92, 98]
  | .tab => [92, 116]
  | .lineFeed => [92, 110]
  | .formFeed => [92, 102]
  | .carriageReturn => [92, 114]
  | .quote => [92, 34]
  | .reverseSolidus => [92, 92]
  | .asciiControl b =>
    [92, 117, 48, 48, hexDigits.getD (b.toNat / 16) 0, hexDigits.getD (b.toNat % 16) 0]

/-- The loop of `format_escaped_str_contents`, `src/serializers/ser.rs:688-717`: `rest` is what follows index `i`. -/
def escapeLoop (bytes : List UInt8) : (i start : Nat) → (rest : List UInt8) → W → Option W
  | _, start, [], w =>
    if start = bytes.length then some w
    else (strSlice bytes start bytes.length).map w.write
  | i, start, byte :: rest, w =>
    let escape := escapeTable.getD byte.toNat 0
    if escape = 0 then escapeLoop bytes (i + 1) start rest w
    else
      match if start < i then (strSlice bytes start i).map w.write else some w with
      | none => none
      | some w =>
        match fromEscapeTable escape byte with
        | none => none
        | some e => escapeLoop bytes (i + 1) (i + 1) rest (w.write (charEscape e))

/-- `format_escaped_str`, `src/serializers/ser.rs:678-686`, for `serialize_str` and the keys of objects
(`src/serializers/ser.rs:196-199, 805-808`). -/
def escapedStr (t : Text) (w : W) : Option W :=
  (escapeLoop (encode t) 0 0 (encode t) (w.write [0x22])).map fun w => w.write [0x22]

/-- `serialize_i64`, and for integers that do not fit `serialize_bigint_as_number`
(`src/input/return_enums.rs:676-686`), which goes through `NumberStrEmitter` (`src/serializers/ser.rs:1199-1205`): the
decimal text. -/
def intText (i : Int) : Text := (toString i).toList

/-- `serialize_f64`, `src/serializers/ser.rs:167-190`; `ryu` is `write_f64` of `serde_json`. -/
def floatText (ryu : F64 → Text) : F64 → Text
  | .nan => "NaN".toList
  | .posInf => "Infinity".toList
  | .negInf => "-Infinity".toList
  | f => ryu f

/-- `State` of `serde_json`, in `Compound` (`src/serializers/ser.rs:752-760`). -/
inductive State where
  | empty | first | rest
  deriving DecidableEq

/-- `serialize_seq` and `serialize_map`, `src/serializers/ser.rs:277-296, 334-353`. -/
def start (f : Fmt) (o c : UInt8) (len : Option Nat) (w : W) : W × State :=
  let w := beginGroup f o w
  if len = some 0 then (endGroup f c w, .empty) else (w, .first)

/-- `end`, `src/serializers/ser.rs:422-436, 581-594`. -/
def finish (f : Fmt) (c : UInt8) : W × State → W
  | (w, .empty) => w
  | (w, _) => endGroup f c w

mutual
/-- The `Serializer` of `src/serializers/ser.rs:64-383`, called as `d` says. -/
def serialize (ryu : F64 → Text) (f : Fmt) : Doc → W → Option W
  | .null, w => some (w.write (encode "null".toList))
  | .bool b, w => some (w.write (encode (if b then "true" else "false").toList))
  | .int i, w => some (w.write (encode (intText i)))
  | .float x, w => some (w.write (encode (floatText ryu x)))
  | .str t, w => escapedStr t w
  | .seq len xs, w => (elements ryu f xs (start f 0x5b 0x5d len w)).map (finish f 0x5d)
  | .map len es, w => (entries ryu f es (start f 0x7b 0x7d len w)).map (finish f 0x7d)

/-- `serialize_element` for each item, `src/serializers/ser.rs:399-420`. -/
def elements (ryu : F64 → Text) (f : Fmt) : List Doc → W × State → Option (W × State)
  | [], ws => some ws
  | d :: ds, (w, s) =>
    match serialize ryu f d (beginItem f (s == .first) w) with
    | none => none
    | some w => elements ryu f ds (endItem f w, .rest)

/-- `serialize_key` and `serialize_value` for each entry, `src/serializers/ser.rs:533-578`. -/
def entries (ryu : F64 → Text) (f : Fmt) : List (Text × Doc) → W × State → Option (W × State)
  | [], ws => some ws
  | (k, d) :: es, (w, s) =>
    match escapedStr k (beginItem f (s == .first) w) with
    | none => none
    | some w =>
      match serialize ryu f d (beginValue f w) with
      | none => none
      | some w => entries ryu f es (endItem f w, .rest)
end

/-- `to_json_bytes`, `src/serializers/shared.rs:353-381`, from a fresh formatter. -/
def toJsonBytes (ryu : F64 → Text) (f : Fmt) (d : Doc) : Option (List UInt8) :=
  (serialize ryu f d ⟨0, false, []⟩).map W.out

end PC.JsonText
