/-
Model of the serialisers of sets and frozensets, `src/serializers/type_serializers/set_frozenset.rs`.
-/

namespace PC.SerSet

/-- What Python says of serialised items when they are put into a set, and the exceptions of serialisation. -/
structure Items (β ε : Type) where
  hashable : β → Bool
  eq : β → β → Bool
  unhashable : β → ε

/-- The two kinds, `src/serializers/type_serializers/set_frozenset.rs:125-126`. -/
inductive Kind where
  | set
  | frozenset
  deriving DecidableEq, Repr

/-- `SerMode`, `src/serializers/extra.rs`. -/
inductive Mode where
  | python
  | json
  | other
  deriving DecidableEq, Repr

/-- What `to_python` returns. -/
inductive Out (β : Type) where
  | list (xs : List β)
  | set (k : Kind) (xs : List β)
  | inferred (b : β)
  deriving DecidableEq, Repr

variable {α β δ ε σ : Type}

/-- A Python value: a set or frozenset with its items in the order of iteration, or another. -/
inductive Val (α : Type) where
  | set (k : Kind) (xs : List α)
  | other (a : α)

/-- The loop over the items, `src/serializers/type_serializers/set_frozenset.rs:64-67`. The state is what serialising
an item may change, such as the warnings. -/
def collect (item : α → σ → Except ε β × σ) : List α → σ → Except ε (List β) × σ
  | [], st => (.ok [], st)
  | x :: xs, st =>
    match item x st with
    | (.error e, st) => (.error e, st)
    | (.ok b, st) =>
      match collect item xs st with
      | (.error e, st) => (.error e, st)
      | (.ok bs, st) => (.ok (b :: bs), st)

/-- `PySet::new` and `PyFrozenSet::new`, `src/serializers/type_serializers/set_frozenset.rs:70`: items are added one
after the other; one that cannot be hashed is a `TypeError`, one that is there already is left out. -/
def addAll (I : Items β ε) : List β → List β → Except ε (List β)
  | [], acc => .ok acc
  | b :: bs, acc =>
    if I.hashable b then
      if acc.any (I.eq b) then addAll I bs acc else addAll I bs (acc ++ [b])
    else .error (I.unhashable b)

/-- `to_python`, `src/serializers/type_serializers/set_frozenset.rs:52-78`; `fallback` is the warning and
`infer_to_python`. -/
def toPython (I : Items β ε) (k : Kind) (item : α → σ → Except ε β × σ) (fallback : Val α → σ → Except ε β × σ)
    (mode : Mode) (v : Val α) (st : σ) : Except ε (Out β) × σ :=
  let infer : Except ε (Out β) × σ :=
    match fallback v st with
    | (.ok b, st) => (.ok (.inferred b), st)
    | (.error e, st) => (.error e, st)
  match v with
  | .set k' xs =>
    if k' = k then
      match collect item xs st with
      | (.error e, st) => (.error e, st)
      | (.ok bs, st) =>
        if mode = .json then (.ok (.list bs), st)
        else
          match addAll I bs [] with
          | .ok os => (.ok (.set k os), st)
          | .error e => (.error e, st)
    else infer
  | .other _ => infer

/-- `serde_serialize`, `src/serializers/type_serializers/set_frozenset.rs:84-112`: the array that is written. -/
def toJson (k : Kind) (item : α → σ → Except ε δ × σ) (fallback : Val α → σ → Except ε (List δ) × σ) (v : Val α) (st : σ) :
    Except ε (List δ) × σ :=
  match v with
  | .set k' xs => if k' = k then collect item xs st else fallback v st
  | .other _ => fallback v st

end PC.SerSet
