import Verif.Model.Collections
import Verif.Spec.Collections

/-
Vocabulary in which the property of tuples (C22) is stated.  Nothing here refers to the loops of
the model.
-/

namespace PC.Coll
variable {α : Type}

/-- One position of a tuple: the item schema responsible for it, its index in the input, and the
input item, if there is one. -/
structure Slot (α : Type) where
  item : TItem α
  index : Nat
  value : Option α

/-- The item schemas responsible for an input of `n` items, in order: the variadic schema is repeated
as often as needed to make the lengths agree. -/
def TupleV.layout (t : TupleV α) (n : Nat) : List (TItem α) :=
  match t.variadic with
  | none => t.head
  | some (v, tail) => t.head ++ List.replicate (n - t.head.length - tail.length) v ++ tail

/-- The positions of the tuple for the input items `xs`. -/
def TupleV.slots (t : TupleV α) (xs : List α) : List (Slot α) :=
  (t.layout xs.length).zipIdx.map (fun p => ⟨p.1, p.2, xs[p.2]?⟩)

/-- What happens at one position. -/
inductive SlotResult (α : Type) where
  /-- the item is present and valid -/
  | value (o : α)
  /-- the item is absent, its schema has a default -/
  | default (o : α)
  /-- the item asked to be left out -/
  | skipped
  /-- the item is present and invalid -/
  | errs (ls : List (LineError α))
  /-- the item is absent and has no default -/
  | missing
  /-- anything else: an exception that is not a validation error of the item -/
  | stop (e : ValError α)

/-- Validate one position. -/
def Slot.run (s : Slot α) (st : VState α) : SlotResult α × VState α :=
  match s.value with
  | some a =>
    let r := s.item.validate a st
    (match r.1 with
      | .ok o => .value o
      | .error (.lineErrors ls) => .errs ls
      | .error .omitted => .skipped
      | .error e => .stop e, r.2)
  | none =>
    let r := s.item.default s.index st
    (match r.1 with
      | .ok (some o) => .default o
      | .ok none => .missing
      | .error e => .stop e, r.2)

/-- Validate the positions in order, the state flowing from one to the next. -/
def slotVisits : List (Slot α) → VState α → List (Nat × SlotResult α)
  | [], _ => []
  | s :: rest, st => (s.index, (s.run st).1) :: slotVisits rest (s.run st).2

namespace SlotResult

/-- The position contributes to a valid tuple. -/
def Fine : SlotResult α → Prop
  | .value _ | .default _ | .skipped => True
  | .errs _ | .missing | .stop _ => False

def Plain : SlotResult α → Prop
  | .stop _ => False
  | _ => True

def outputs : SlotResult α → List α
  | .value o | .default o => [o]
  | _ => []

/-- Outputs that come from items of the input. -/
def values : SlotResult α → List α
  | .value o => [o]
  | _ => []

end SlotResult

/-- All outputs, in order. -/
def slotOutputs (vs : List (Nat × SlotResult α)) : List α := vs.flatMap (·.2.outputs)

/-- All outputs that come from items of the input, in order. -/
def slotValues (vs : List (Nat × SlotResult α)) : List α := vs.flatMap (·.2.values)

/-- The errors of a position, located at its index. -/
def slotErrors (input : α) (x : Nat × SlotResult α) : List (LineError α) :=
  match x.2 with
  | .errs ls => ls.map (·.withOuterLocation (.i x.1))
  | .missing => [.newWithLoc .missing input (.i x.1)]
  | _ => []

/-- A tuple schema without variadic item takes no more items than it has item schemas. -/
def TupleV.Room (t : TupleV α) (n : Nat) : Prop := t.variadic = none → n ≤ t.head.length

/-- The `too_short` error, if the output is shorter than `min_length`. -/
def TupleV.shortError (t : TupleV α) (input : α) (n : Nat) : List (LineError α) :=
  match t.minLength with
  | some m => if n < m then [.new (.tooShort "Tuple" m n) input] else []
  | none => []

end PC.Coll

namespace PC.Coll
variable {α : Type}

/-- The index under which position `i` of a tuple of `n` items is reported: its own, except that
positions after a non-empty run of variadic items are reported one too low. -/
def TupleV.reportedIndex (t : TupleV α) (n i : Nat) : Nat :=
  match t.variadic with
  | none => i
  | some (_, tail) =>
    if t.head.length + tail.length < n ∧ n - tail.length ≤ i then i - 1 else i

/-- Nothing is validated after a run of variadic items. -/
def TupleV.NoTail (t : TupleV α) (n : Nat) : Prop :=
  ∀ v tail, t.variadic = some (v, tail) → tail = [] ∨ n ≤ t.head.length + tail.length

/-- The item schemas reject with at least one error. -/
def TupleV.Rejects (t : TupleV α) : Prop :=
  (∀ v ∈ t.head, RejectsWithErrors v.validate) ∧
  ∀ v tail, t.variadic = some (v, tail) →
    RejectsWithErrors v.validate ∧ ∀ w ∈ tail, RejectsWithErrors w.validate

end PC.Coll
