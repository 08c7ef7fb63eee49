import Verif.Model.Uuid

/-
What a UUID schema promises: which inputs spell which UUID, what version a UUID has, and what
its text looks like.
-/

namespace PC.Uuid
open PC.In

/-- Byte `i` of the sixteen bytes of a UUID, the most significant first. -/
def byteAt (n i : Nat) : Nat := n / 256 ^ (15 - i) % 256

/-- RFC 9562: a UUID is of version `k` if the upper half of byte 6 is `k` and the two upper bits
of byte 8 are `10`. -/
def IsVersion (n k : Nat) : Prop := byteAt n 6 / 16 = k ∧ byteAt n 8 / 64 = 2

/-- The version a schema asks for. -/
def Wanted (version : Option Nat) (n : Nat) : Prop := ∀ k, version = some k → IsVersion n k

/-- An instance whose `version` is the one the standard library computes. -/
def Obj.Standard (o : Obj) : Prop :=
  ∀ k, o.version = .ok (some k) ↔ IsVersion o.int k

/-- An instance whose `version` can be read. -/
def Obj.Readable (o : Obj) : Prop := ∃ r, o.version = .ok r

/-- The input is not an instance of `uuid.UUID`. -/
def Input.Plain : Input → Prop
  | .py (some _) _ => False
  | _ => True

/-- The object of a result. -/
def Out.obj : Out → Obj
  | .same o => o
  | .created o => o

/-- The text that an input is, if it is one. -/
inductive IsText : Input → List Char → Prop where
  | str {x s} : x.kind = .str (some s) → IsText (.py none x) s
  | strSub {x s} : x.kind = .strSub (some s) → IsText (.py none x) s
  | json {s} : IsText (.json (.str s)) s
  | strings {s} : IsText (.string (.string (some s))) s

/-- The bytes that an input is, if it is such an object. -/
inductive IsBytes : Input → List UInt8 → Prop where
  | bytes {x b t} : x.kind = .bytes b t → IsBytes (.py none x) b
  | bytesSub {x b t} : x.kind = .bytesSub b t → IsBytes (.py none x) b

/-- An input spells a UUID: its text does, or its bytes do as text, or its bytes do not but are
the sixteen bytes of the UUID. -/
inductive Spells (E : Env) : Input → Nat → Prop where
  | text {i s n} : IsText i s → E.parse s = some n → Spells E i n
  | bytesText {i b s n} : IsBytes i b → E.decode b = some s → E.parse s = some n → Spells E i n
  | bytes {i b n} : IsBytes i b → (∀ s, E.decode b = some s → E.parse s = none) →
      b.length = 16 → n < 2 ^ 128 → (∀ j (h : j < b.length), b[j].toNat = byteAt n j) →
      Spells E i n

/-- What is assumed of the parser and of the decoder of UTF-8: the text that is written is read
back, every UUID has 128 bits, no text of fewer than 32 characters is one, and a text has no more
characters than bytes. -/
structure Env.Good (E : Env) : Prop where
  parse_print : ∀ n, n < 2 ^ 128 → E.parse (print n) = some n
  parse_lt : ∀ s n, E.parse s = some n → n < 2 ^ 128
  parse_length : ∀ s n, E.parse s = some n → 32 ≤ s.length
  decode_length : ∀ b s, E.decode b = some s → s.length ≤ b.length

/-- The value of a text in base 16, hyphens left out. -/
def hexValue (s : List Char) : Nat :=
  (s.filter (· ≠ '-')).foldl
    (fun n c => 16 * n + (if c.toNat < 58 then c.toNat - 48 else c.toNat - 87)) 0

/-- A lower-case hexadecimal digit. -/
def IsHex (c : Char) : Prop := ('0' ≤ c ∧ c ≤ '9') ∨ ('a' ≤ c ∧ c ≤ 'f')

/-- The canonical text of RFC 9562. -/
structure Canonical (s : List Char) : Prop where
  length : s.length = 36
  hyphens : ∀ i : Nat, s[i]? = some '-' ↔ i = 8 ∨ i = 13 ∨ i = 18 ∨ i = 23
  digits : ∀ c ∈ s, c = '-' ∨ IsHex c

end PC.Uuid
