import Verif.Spec.Fields
import Verif.Model.Dataclass

/-
C98: how many fields a validation reports as set, which is what smart unions go by first.
-/

namespace PC.Count
open PC.Lookup PC.Fields PC.Args PC.Dc
variable {α : Type}

/-- The number reported so far. -/
def cnt (st : VState α) : Nat := st.fieldsSetCount.getD 0

/-- The value that the input holds for a field. -/
def given (get : LookupKey → ValResult α (Option (LookupPath × α))) (byAlias byName : Bool) (keys : KeyCollection) : Option α :=
  match keys.select byAlias byName with
  | .ok key =>
    match get key with
    | .ok (some (_, v)) => some v
    | _ => none
  | .error _ => none

/-- A validator that reports `w v` fields of its own when it accepts `v` (0 unless there are models in it), that does not ask for
its field to be left out and does not fail without an error. -/
def Counts (run : Validator α α) (w : α → Nat) : Prop :=
  ∀ v st, (run v st).1 ≠ .error .omitted ∧ (run v st).1 ≠ .error (.lineErrors []) ∧
    ∀ r, (run v st).1 = .ok r → cnt (run v st).2 = cnt st + w v

/-- The same of a default. -/
def DefaultCounts (dflt : Option LocItem → VState α → ValResult α (Option α) × VState α) (w : Nat) : Prop :=
  ∀ l st, (dflt l st).1 ≠ .error .omitted ∧ (dflt l st).1 ≠ .error (.lineErrors []) ∧
    ∀ r, (dflt l st).1 = .ok r → cnt (dflt l st).2 = cnt st + w

/-- A validator that reports nothing, whatever its outcome. -/
def Silent (run : Validator α α) : Prop := ∀ v st, (run v st).2.fieldsSetCount = st.fieldsSetCount

/-- What the fields of a model report: `w` for the value given, `wd` for a default. -/
def nested (get : LookupKey → ValResult α (Option (LookupPath × α))) (byAlias byName : Bool) (w : String → α → Nat)
    (wd : String → Nat) (fs : List (Field α)) : Nat :=
  (fs.map fun f => match given get byAlias byName f.keys with
    | some v => w f.name v
    | none => wd f.name).sum

/-- The number of fields that the input holds a value for. -/
def ownCount (get : LookupKey → ValResult α (Option (LookupPath × α))) (byAlias byName : Bool) (fs : List (Field α)) : Nat :=
  fs.countP fun f => (given get byAlias byName f.keys).isSome

/-- The value that a call of a dataclass holds for the field at a position: a positional argument, or else a keyword argument. -/
def dcGiven (view : ArgsView α) (byAlias byName : Bool) (index : Nat) (f : DcField α) : Option α :=
  match posValue view f index with
  | some v => some v
  | none =>
    match view.kwargs with
    | some kw => given kw.get byAlias byName f.keys
    | none => none

/-- The number of fields of a dataclass that the call holds a value for, and of those that are not parameters but have a default. -/
def dcOwn (view : ArgsView α) (byAlias byName : Bool) (hasDefault : String → Bool) : Nat → List (DcField α) → Nat
  | _, [] => 0
  | i, f :: fs =>
    (if (if f.init then (dcGiven view byAlias byName i f).isSome else hasDefault f.name) then 1 else 0) +
      dcOwn view byAlias byName hasDefault (i + 1) fs

/-- What the fields of a dataclass report: `w` for the value given, `wd` for a default. -/
def dcNested (view : ArgsView α) (byAlias byName : Bool) (w : String → α → Nat) (wd : String → Nat) : Nat → List (DcField α) → Nat
  | _, [] => 0
  | i, f :: fs =>
    (match (if f.init then dcGiven view byAlias byName i f else none) with
      | some v => w f.name v
      | none => wd f.name) + dcNested view byAlias byName w wd (i + 1) fs

end PC.Count
