import Verif.Model.Collections

/-
Vocabulary in which the properties of collections (C16-C21) are stated.  Nothing here refers to
the loops of the model.
-/

namespace PC.Coll
variable {α : Type}

/-! ## Specification vocabulary -/

/-- What the item validator did on one item: its index, whether it is the last item of a partial
input, and the result. -/
structure Visit (α : Type) where
  index : Nat
  last : Bool
  item : α
  result : ValResult α α

/-- Run the item validator on every item in order, the state flowing from one item to the next.
Partial mode is switched on for the last item only. -/
def visits (v : Validator α α) (mode : PartialMode) : Nat → List α → VState α → List (Visit α)
  | _, [], _ => []
  | i, a :: rest, st =>
    let last := mode.isActive && rest.isEmpty
    let r := v a { st with allowPartial := if last then mode else .off }
    ⟨i, last, a, r.1⟩ :: visits v mode (i + 1) rest r.2

namespace Visit

/-- The item produced a value, validation errors, or asked to be omitted. -/
def Plain (x : Visit α) : Prop :=
  match x.result with
  | .ok _ | .error (.lineErrors _) | .error .omitted => True
  | .error _ => False

/-- The value the item contributes to the output. -/
def outputs (x : Visit α) : List α :=
  match x.result with
  | .ok o => [o]
  | .error _ => []

/-- The errors the item contributes: each at the item's index; none for the last item of a
partial input. -/
def errors (x : Visit α) : List (LineError α) :=
  match x.result with
  | .error (.lineErrors ls) => if x.last then [] else ls.map (·.withOuterLocation (.i x.index))
  | _ => []

/-- The item failed with validation errors that are reported. -/
def Fails (x : Visit α) : Prop := ∃ ls, x.result = .error (.lineErrors ls) ∧ x.last = false

/-- How much the item counts towards `max_length`. -/
def count (x : Visit α) : Nat :=
  match x.result with
  | .error .omitted => 0
  | _ => 1

end Visit

def outputs (vs : List (Visit α)) : List α := vs.flatMap Visit.outputs
def errors (vs : List (Visit α)) : List (LineError α) := vs.flatMap Visit.errors
def count (vs : List (Visit α)) : Nat := (vs.map Visit.count).sum

/-- `n` respects the upper bound. -/
def FitsMax (max : Option Nat) (n : Nat) : Prop := ∀ m, max = some m → n ≤ m

/-- `n` respects the lower bound. -/
def FitsMin (min : Option Nat) (n : Nat) : Prop := ∀ m, min = some m → m ≤ n

/-- The state after running the item validator on the items, partial mode off. -/
def after (v : Validator α α) : List α → VState α → VState α
  | [], st => st
  | a :: rest, st => after v rest (v a { st with allowPartial := .off }).2

/-- A validator that rejects reports at least one error. -/
def RejectsWithErrors (v : Validator α α) : Prop := ∀ a st, (v a st).1 ≠ .error (.lineErrors [])

/-- Partial mode does not change what the validator does with data it accepts (or omits) in full
mode. -/
def PartialComplete (v : Validator α α) : Prop :=
  ∀ (a : α) (st : VState α) (mode : PartialMode) (r : ValResult α α),
    (v a { st with allowPartial := .off }).1 = r →
    ((∃ o, r = .ok o) ∨ r = .error .omitted) → (v a { st with allowPartial := mode }).1 = r

/-- Ask the look-ahead iterator for `k` items: what it yields and the iterator afterwards. -/
def LookAhead.run {ι : Type} : Nat → LookAhead ι → List (Nat × Bool × ι) × LookAhead ι
  | 0, l => ([], l)
  | k + 1, l =>
    match l.next with
    | (none, l) => ([], l)
    | (some x, l) => let r := run k l; (x :: r.1, r.2)

/-! ## Sets -/

/-- The outcome of putting a validated item in a set: a value that cannot be hashed is an error of
the item (`set_item_not_hashable`) if `hash` raised a `TypeError`, another exception otherwise. -/
def hashed (h : Hashing α) (x : Visit α) : Visit α :=
  match x.result with
  | .error _ => x
  | .ok w =>
    match h.hashErr w with
    | none => x
    | some (true, _) => { x with result := .error (.lineErrors [⟨.setItemNotHashable, .empty, x.item⟩]) }
    | some (false, e) => { x with result := .error (.internal e) }

/-- Keep the first of every group of equal values. -/
def distinctFrom (h : Hashing α) (s : List α) : List α → List α
  | [] => s
  | x :: xs => distinctFrom h (if s.any (h.same · x) then s else s ++ [x]) xs

def distinct (h : Hashing α) (xs : List α) : List α := distinctFrom h [] xs

/-! ## Dicts -/

/-- What the validators did on one entry; `valueResult` is `none` if the value was not looked at. -/
structure EntryVisit (α : Type) where
  key : α
  last : Bool
  keyResult : ValResult α α
  valueResult : Option (ValResult α α)

/-- Run the key and value validators on every entry in order, the state flowing from one to the
next.  The value is looked at unless the key is omitted or raises.  Partial mode is on for the
last value only. -/
def entryVisits (kv vv : Validator α α) (mode : PartialMode) :
    List (α × α) → VState α → List (EntryVisit α)
  | [], _ => []
  | (k, x) :: rest, st =>
    let last := mode.isActive && rest.isEmpty
    let rk := kv k { st with allowPartial := .off }
    match rk.1 with
    | .ok _ | .error (.lineErrors _) =>
      let rv := vv x { rk.2 with allowPartial := if last then mode else .off }
      ⟨k, last, rk.1, some rv.1⟩ :: entryVisits kv vv mode rest rv.2
    | .error _ => ⟨k, last, rk.1, none⟩ :: entryVisits kv vv mode rest rk.2

namespace EntryVisit

/-- The output pair of the entry. -/
def pairs (x : EntryVisit α) : List (α × α) :=
  match x.keyResult, x.valueResult with
  | .ok k, some (.ok w) => [(k, w)]
  | _, _ => []

/-- No exception other than a validation error, and the output key can be hashed. -/
def Plain (h : Hashing α) (x : EntryVisit α) : Prop :=
  (∀ e, x.keyResult = .error e → (∃ ls, e = .lineErrors ls) ∨ e = .omitted) ∧
  (∀ e, x.valueResult = some (.error e) → (∃ ls, e = .lineErrors ls) ∨ e = .omitted) ∧
  ∀ p ∈ x.pairs, h.hashErr p.1 = none

def keyErrors (loc : α → LocItem) (x : EntryVisit α) : List (LineError α) :=
  match x.keyResult with
  | .error (.lineErrors ls) =>
    ls.map (fun e => (e.withOuterLocation (.s "[key]")).withOuterLocation (loc x.key))
  | _ => []

def valueErrors (loc : α → LocItem) (x : EntryVisit α) : List (LineError α) :=
  match x.valueResult with
  | some (.error (.lineErrors ls)) =>
    if x.last then [] else ls.map (·.withOuterLocation (loc x.key))
  | _ => []

/-- The errors of an entry: those of its key at `(key, '[key]')`, those of its value at `(key,)`
unless it is the last value of a partial input. -/
def errors (loc : α → LocItem) (x : EntryVisit α) : List (LineError α) :=
  x.keyErrors loc ++ x.valueErrors loc

end EntryVisit

/-- The dict built from a list of pairs in order: later values replace earlier ones. -/
def dictOf (h : Hashing α) (ps : List (α × α)) : List (α × α) :=
  ps.foldl (fun d p => setItem h d p.1 p.2) []

end PC.Coll
