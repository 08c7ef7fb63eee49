import Verif.Model.SerUnion
import Verif.Model.Literal

/-
Model of how a tagged union finds its choice: the table and the discriminator of
`src/serializers/type_serializers/union.rs`, and the same of `src/validators/union.rs`.
-/

namespace PC.TagLookup
open PC.SerUnion PC.Lit

abbrev Text := List Char

/-- The table of `TaggedUnionSerializer::build`, `src/serializers/type_serializers/union.rs:211-217`: a
`HashMap` from `str(choice_key)` to the index of the choice, an association list with the newest entry
first.  `str` is `to_string` of a Python object. -/
def buildFrom (str : α → Text) : Nat → List α → List (Text × Nat) → List (Text × Nat)
  | _, [], table => table
  | idx, key :: rest, table => buildFrom str (idx + 1) rest ((str key, idx) :: table)

/-- `lookup` of a `TaggedUnionSerializer`, `src/serializers/type_serializers/union.rs:209-217`. -/
def build (str : α → Text) (keys : List α) : List (Text × Nat) := buildFrom str 0 keys []

/-- `self.lookup.get(&tag.to_string())`, `src/serializers/type_serializers/union.rs:325-326`. -/
def serIndex (str : α → Text) (keys : List α) (tag : α) : Option Nat :=
  (build str keys).lookup (str tag)

/-- `Discriminator`, `src/validators/union.rs:283-284` and `src/common/union.rs:8-24`: a path that is looked
up, or a function. Reading an item, reading an attribute and calling may raise; the exception is not
looked at. -/
inductive Disc (α : Type) where
  | path (isDict : α → Bool) (item attr : α → Except Unit (Option α))
  | func (call : α → Except Unit α)

/-- `Result::ok` then `flatten`. -/
def okFlat : Except Unit (Option α) → Option α
  | .ok r => r
  | .error _ => Option.none

/-- `TaggedUnionSerializer::get_discriminator_value`,
`src/serializers/type_serializers/union.rs:294-311`. -/
def discValue (d : Disc α) (v : α) : Option α :=
  match d with
  | .path isDict item attr => if isDict v then okFlat (item v) else okFlat (attr v)
  | .func call => (call v).toOption

/-- What the validator makes of its discriminator, `src/validators/union.rs:347-374`: an exception is
raised, no tag is found, or the tag is looked up.  Simplification: `dict` is the input as
`validate_model_fields` sees it, an item of a dict or an attribute of another object (with
`from_attributes`). -/
inductive ValTag (α : Type) where
  | raised
  | notFound
  | tag (t : α)

/-- See `ValTag`; `isNone` is `is_none`. -/
def valTag (isNone : α → Bool) (d : Disc α) (v : α) : ValTag α :=
  match d with
  | .path isDict item attr =>
    match (if isDict v then item v else attr v) with
    | .error _ => .raised
    | .ok Option.none => .notFound
    | .ok (some t) => .tag t
  | .func call =>
    match call v with
    | .error _ => .raised
    | .ok t => if isNone t then .notFound else .tag t

/-- The choice of the validator for a tag: the table of `src/validators/union.rs:308-327` and the lookup
of `:385`, where an error of the lookup counts as not found. -/
def valIndex (o : PyOps α) (keys : List α) (tag : α) : Option Nat :=
  match (Lookup.new o (keys.map fun k => (k, ()))).find o (.ofPy o tag) with
  | .ok r => r
  | .error _ => Option.none

/-- `tagged_union_serialize` with its discriminator and table,
`src/serializers/type_serializers/union.rs:313-357`. -/
def serialize {ε β : Type} (str : α → Text) (warnOn : Bool) (join : List ε → ε) (noTag : ε)
    (check : Check) (d : Disc α) (keys : List α) (ms : List (Member ε β)) (v : α) (w : List ε) :
    Except ε (Option β) × List ε :=
  taggedSerialize warnOn join noTag check (discValue d v) (serIndex str keys) ms w

end PC.TagLookup
