import Verif.Model.JsonText

/-
JSON text as RFC 8259 defines it, with the value each text stands for.
-/

namespace PC.JsonText
open PC.Float (F64)
open PC.Infer (Text Json)

/-- White space, RFC 8259, section 2. -/
def Ws (t : Text) : Prop := ∀ c ∈ t, c = ' ' ∨ c = '\t' ∨ c = '\n' ∨ c = '\r'

/-- A decimal digit and its value. -/
def Digit (c : Char) : Prop := '0' ≤ c ∧ c ≤ '9'

/-- The number that decimal digits stand for. -/
def decimal (t : Text) : Nat := t.foldl (fun n c => 10 * n + (c.toNat - '0'.toNat)) 0

/-- `int` of section 6: digits without a superfluous zero in front. -/
def Natural (t : Text) : Prop := t ≠ [] ∧ (∀ c ∈ t, Digit c) ∧ (t.head? = some '0' → t = ['0'])

/-- A number without fraction and exponent, with its value. -/
def IntText (t : Text) (i : Int) : Prop :=
  (Natural t ∧ i = decimal t) ∨ (∃ u, t = '-' :: u ∧ Natural u ∧ i = -decimal u)

/-- `frac` of section 6. -/
def Frac (t : Text) : Prop := ∃ u, t = '.' :: u ∧ u ≠ [] ∧ ∀ c ∈ u, Digit c

/-- `exp` of section 6. -/
def Exp (t : Text) : Prop :=
  ∃ e s u, t = e :: s ++ u ∧ (e = 'e' ∨ e = 'E') ∧ (s = [] ∨ s = ['+'] ∨ s = ['-']) ∧ u ≠ [] ∧ ∀ c ∈ u, Digit c

/-- A number with a fraction or an exponent. -/
def FloatText (t : Text) : Prop :=
  ∃ m n fr ex, t = m ++ n ++ fr ++ ex ∧ (m = [] ∨ m = ['-']) ∧ Natural n ∧ (fr = [] ∨ Frac fr) ∧ (ex = [] ∨ Exp ex) ∧
    (Frac fr ∨ Exp ex)

/-- The value of a hexadecimal digit. -/
def hexValue (c : Char) : Option Nat :=
  if '0' ≤ c ∧ c ≤ '9' then some (c.toNat - '0'.toNat)
  else if 'a' ≤ c ∧ c ≤ 'f' then some (c.toNat - 'a'.toNat + 10)
  else if 'A' ≤ c ∧ c ≤ 'F' then some (c.toNat - 'A'.toNat + 10)
  else none

/-- Four hexadecimal digits and the number they stand for. -/
def Hex4 (t : Text) (n : Nat) : Prop :=
  ∃ a b c d x y z w, t = [a, b, c, d] ∧ hexValue a = some x ∧ hexValue b = some y ∧ hexValue c = some z ∧
    hexValue d = some w ∧ n = ((x * 16 + y) * 16 + z) * 16 + w

/-- The escapes of two characters, section 7. -/
def shortEscapes : List (Char × Char) :=
  [('"', '"'), ('\\', '\\'), ('/', '/'), ('b', '\x08'), ('f', '\x0c'), ('n', '\n'), ('r', '\r'), ('t', '\t')]

/-- What is between the quotes of a string, section 7, and the text it stands for. -/
inductive Chars : Text → Text → Prop where
  | nil : Chars [] []
  | plain {c s t} : c ≠ '"' → c ≠ '\\' → 0x20 ≤ c.toNat → Chars s t → Chars (c :: s) (c :: t)
  | short {e c s t} : (e, c) ∈ shortEscapes → Chars s t → Chars ('\\' :: e :: s) (c :: t)
  | code {h c s t} : Hex4 h c.toNat → Chars s t → Chars ('\\' :: 'u' :: h ++ s) (c :: t)
  | pair {h l hi lo c s t} : Hex4 h hi → Hex4 l lo → 0xd800 ≤ hi → hi < 0xdc00 → 0xdc00 ≤ lo → lo < 0xe000 →
      c.toNat = 0x10000 + (hi - 0xd800) * 0x400 + (lo - 0xdc00) → Chars s t →
      Chars ('\\' :: 'u' :: h ++ '\\' :: 'u' :: l ++ s) (c :: t)

/-- `string`, section 7. -/
def Quoted (s t : Text) : Prop := ∃ u, s = '"' :: u ++ ['"'] ∧ Chars u t

/- The value of a text, section 3. How a number with a fraction or an exponent is rounded to a double is the reader's
business (`read`). With `ext` the constants of Python's `json` and of JavaScript are allowed, which RFC 8259 does not
know. -/
mutual
inductive Value (ext : Prop) (read : Text → F64) : Text → Json → Prop where
  | null : Value ext read "null".toList .null
  | true : Value ext read "true".toList (.bool Bool.true)
  | false : Value ext read "false".toList (.bool Bool.false)
  | int {t i} : IntText t i → Value ext read t (.int i)
  | float {t} : FloatText t → Value ext read t (.float (read t))
  | nan : ext → Value ext read "NaN".toList (.float .nan)
  | posInf : ext → Value ext read "Infinity".toList (.float .posInf)
  | negInf : ext → Value ext read "-Infinity".toList (.float .negInf)
  | str {s t} : Quoted s t → Value ext read s (.str t)
  | emptyArr {w} : Ws w → Value ext read ('[' :: w ++ [']']) (.arr [])
  | arr {s v vs} : Items ext read s v vs → Value ext read ('[' :: s ++ [']']) (.arr (v :: vs))
  | emptyObj {w} : Ws w → Value ext read ('{' :: w ++ ['}']) (.obj [])
  | obj {s e es} : Members ext read s e es → Value ext read ('{' :: s ++ ['}']) (.obj (e :: es))

inductive Items (ext : Prop) (read : Text → F64) : Text → Json → List Json → Prop where
  | one {a t v b} : Ws a → Value ext read t v → Ws b → Items ext read (a ++ t ++ b) v []
  | more {a t v b s w vs} : Ws a → Value ext read t v → Ws b → Items ext read s w vs →
      Items ext read (a ++ t ++ b ++ ',' :: s) v (w :: vs)

inductive Members (ext : Prop) (read : Text → F64) : Text → Text × Json → List (Text × Json) → Prop where
  | one {a q k b c t v d} : Ws a → Quoted q k → Ws b → Ws c → Value ext read t v → Ws d →
      Members ext read (a ++ q ++ b ++ ':' :: c ++ t ++ d) (k, v) []
  | more {a q k b c t v d s e es} : Ws a → Quoted q k → Ws b → Ws c → Value ext read t v → Ws d →
      Members ext read s e es → Members ext read (a ++ q ++ b ++ ':' :: c ++ t ++ d ++ ',' :: s) (k, v) (e :: es)
end

/-- A JSON text, section 2, and its value. -/
def Denotes (ext : Prop) (read : Text → F64) (s : Text) (v : Json) : Prop :=
  ∃ a t b, s = a ++ t ++ b ∧ Ws a ∧ Value ext read t v ∧ Ws b

mutual
/-- What the calls describe. -/
def Doc.value : Doc → Json
  | .null => .null
  | .bool b => .bool b
  | .int i => .int i
  | .float f => .float f
  | .str t => .str t
  | .seq _ xs => .arr (Doc.values xs)
  | .map _ es => .obj (Doc.entryValues es)

def Doc.values : List Doc → List Json
  | [] => []
  | d :: ds => d.value :: Doc.values ds

def Doc.entryValues : List (Text × Doc) → List (Text × Json)
  | [] => []
  | (k, d) :: es => (k, d.value) :: Doc.entryValues es
end

mutual
/-- No sequence or map announced as empty has items. -/
def Doc.Announced : Doc → Prop
  | .seq len xs => (len = some 0 → xs = []) ∧ Doc.AnnouncedAll xs
  | .map len es => (len = some 0 → es = []) ∧ Doc.AnnouncedEntries es
  | _ => True

def Doc.AnnouncedAll : List Doc → Prop
  | [] => True
  | d :: ds => d.Announced ∧ Doc.AnnouncedAll ds

def Doc.AnnouncedEntries : List (Text × Doc) → Prop
  | [] => True
  | (_, d) :: es => d.Announced ∧ Doc.AnnouncedEntries es
end

/-- A double in lowest terms: `F64` has several forms of the same double, this is one of them. -/
def Lowest : F64 → Prop
  | .fin n k => k = 0 ∨ n % 2 = 1
  | _ => True

mutual
/-- Every double of a document satisfies `P`. -/
def Doubles (P : F64 → Prop) : Json → Prop
  | .float f => P f
  | .arr xs => DoublesAll P xs
  | .obj es => DoublesEntries P es
  | _ => True

def DoublesAll (P : F64 → Prop) : List Json → Prop
  | [] => True
  | v :: vs => Doubles P v ∧ DoublesAll P vs

def DoublesEntries (P : F64 → Prop) : List (Text × Json) → Prop
  | [] => True
  | (_, v) :: es => Doubles P v ∧ DoublesEntries P es
end

/-- What is assumed of Rust's shortest decimal form of a double (`ryu`), and of the reader: the form of a finite double
is a number with a fraction or an exponent, which is read as that double. -/
def Shortest (ryu : F64 → Text) (read : Text → F64) : Prop :=
  ∀ f, f.isFinite = true → Lowest f → FloatText (ryu f) ∧ read (ryu f) = f

/-! ### The layout of the text -/

/-- A hexadecimal digit. -/
def hexChar (n : Nat) : Char := "0123456789abcdef".toList.getD n '?'

/-- How a character is written in a string: escapes for the quote, the backslash and the control characters only. -/
def escapeChar (c : Char) : Text :=
  if c = '"' then ['\\', '"']
  else if c = '\\' then ['\\', '\\']
  else if c = '\n' then ['\\', 'n']
  else if c = '\t' then ['\\', 't']
  else if c = '\r' then ['\\', 'r']
  else if c = '\x08' then ['\\', 'b']
  else if c = '\x0c' then ['\\', 'f']
  else if c.toNat < 0x20 then ['\\', 'u', '0', '0', hexChar (c.toNat / 16), hexChar (c.toNat % 16)]
  else [c]

/-- A string in quotes. -/
def quote (t : Text) : Text := '"' :: t.flatMap escapeChar ++ ['"']

/-- A new line at a depth of nesting, unless the text is compact. -/
def newline (f : Fmt) (depth : Nat) : Text :=
  match f with
  | .compact => []
  | .pretty n => '\n' :: List.replicate (depth * n) ' '

/-- Between key and value. -/
def colon (f : Fmt) : Text :=
  match f with
  | .compact => [':']
  | .pretty _ => [':', ' ']

mutual
/-- The text of a document: every item on a line of its own, indented by its depth; nothing within empty brackets. -/
def layout (showF : F64 → Text) (f : Fmt) (depth : Nat) : Json → Text
  | .null => "null".toList
  | .bool b => if b then "true".toList else "false".toList
  | .int i => (toString i).toList
  | .float x => showF x
  | .str t => quote t
  | .arr [] => ['[', ']']
  | .arr (v :: vs) => '[' :: newline f (depth + 1) ++ layout showF f (depth + 1) v ++ layoutItems showF f (depth + 1) vs ++
      newline f depth ++ [']']
  | .obj [] => ['{', '}']
  | .obj ((k, v) :: es) => '{' :: newline f (depth + 1) ++ quote k ++ colon f ++ layout showF f (depth + 1) v ++
      layoutEntries showF f (depth + 1) es ++ newline f depth ++ ['}']

/-- The items after the first. -/
def layoutItems (showF : F64 → Text) (f : Fmt) (depth : Nat) : List Json → Text
  | [] => []
  | v :: vs => ',' :: newline f depth ++ layout showF f depth v ++ layoutItems showF f depth vs

/-- The entries after the first. -/
def layoutEntries (showF : F64 → Text) (f : Fmt) (depth : Nat) : List (Text × Json) → Text
  | [] => []
  | (k, v) :: es => ',' :: newline f depth ++ quote k ++ colon f ++ layout showF f depth v ++
      layoutEntries showF f depth es
end

end PC.JsonText
