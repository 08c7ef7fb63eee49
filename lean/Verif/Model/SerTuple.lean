/-
Tuples when serialised: which serialiser each item gets (`src/serializers/type_serializers/tuple.rs`).
-/

namespace PC.SerTuple

/-- `TupleSerializer`, `src/serializers/type_serializers/tuple.rs:20-26`, without its name; the filter is a
parameter of the functions below. -/
structure TupSer (S : Type) where
  sers : List S
  variadic : Option Nat

/-- `TupleSerializerEntry`, `tuple.rs:161-166`: `next` stands for the include and exclude of the item. -/
structure Entry (α N S : Type) where
  item : α
  next : N
  ser : S

/-- How the traversal ends early. -/
inductive Stop (E : Type) where
  /-- An error of the filter or of the callback. -/
  | err (e : E)
  /-- `PydanticSerializationUnexpectedValue`: `Expected {} items, but got {}`. -/
  | unexpected (expected got : Nat)
  /-- An index out of bounds. -/
  | panic
  deriving DecidableEq

variable {α N S E σ : Type}

/-- One turn of the loops: the filter is asked, then the callback called. `tuple.rs:195-206, 236-247`. -/
def turn (flt : Nat → Except E (Option N)) (f : Entry α N S → σ → Except E σ) (i : Nat) (x : α) (s : S) (st : σ) :
    Except (Stop E) σ :=
  match flt i with
  | .error e => .error (.err e)
  | .ok none => .ok st
  | .ok (some n) =>
    match f ⟨x, n, s⟩ st with
    | .error e => .error (.err e)
    | .ok st' => .ok st'

/-- The macro `use_serializers`, `tuple.rs:187-209`: returns the items that are left. -/
def useSerializers (flt : Nat → Except E (Option N)) (f : Entry α N S → σ → Except E σ) :
    List S → Nat → List α → σ → Except (Stop E) (σ × List α)
  | [], _, items, st => .ok (st, items)
  | _ :: _, _, [], st => .ok (st, [])
  | s :: ss, i, x :: xs, st =>
    match turn flt f i x s st with
    | .error e => .error e
    | .ok st' => useSerializers flt f ss (i + 1) xs st'

/-- The loop over the items beyond the serialisers, `tuple.rs:227-248`. -/
def extraItems (flt : Nat → Except E (Option N)) (f : Entry α N S → σ → Except E σ) (anySer : S) (warn : σ → σ)
    (base : Nat) : List α → Nat → (warned : Bool) → σ → Except (Stop E) σ
  | [], _, _, st => .ok st
  | x :: xs, i, warned, st =>
    let st := if warned then st else warn st
    match turn flt f (i + base) x anySer st with
    | .error e => .error e
    | .ok st' => extraItems flt f anySer warn base xs (i + 1) true st'

/-- `TupleSerializer::for_each_tuple_item_and_serializer`, `tuple.rs:175-251`. `warn` registers the warning
about extra items, `anySer` is `AnySerializer`, `strict` is `SerCheck::Strict`. -/
def forEach (t : TupSer S) (flt : Nat → Except E (Option N)) (f : Entry α N S → σ → Except E σ) (anySer : S)
    (warn : σ → σ) (strict : Bool) (items : List α) (st : σ) : Except (Stop E) σ :=
  match t.variadic with
  | some v =>
    match t.sers[v]? with
    | none => .error .panic
    | some sv =>
      let nVariadic := (items.length + 1) - t.sers.length
      match useSerializers flt f (t.sers.take v ++ List.replicate nVariadic sv ++ t.sers.drop (v + 1)) 0 items st with
      | .error e => .error e
      | .ok (st', _) => .ok st'
  | none =>
    if strict && items.length != t.sers.length then .error (.unexpected t.sers.length items.length)
    else
      match useSerializers flt f t.sers 0 items st with
      | .error e => .error e
      | .ok (st', rest) => extraItems flt f anySer warn t.sers.length rest 0 false st'

/-- The callback of `to_python`, `tuple.rs:77-82`. The state: the items so far and the warnings. -/
def pushItem {W O : Type} (ser : S → α → N → List W → Except E (O × List W)) (e : Entry α N S)
    (st : List O × List W) : Except E (List O × List W) :=
  match ser e.ser e.item e.next st.2 with
  | .error err => .error err
  | .ok (o, ws') => .ok (st.1 ++ [o], ws')

/-- `TupleSerializer::to_python` for a tuple, `tuple.rs:63-94`: the serialised items. The state is the list of
warnings; `ser` serialises an item with the given serialiser. -/
def toPython {W O : Type} (t : TupSer S) (flt : Nat → Except E (Option N))
    (ser : S → α → N → List W → Except E (O × List W)) (anySer : S) (extraWarning : W) (strict : Bool)
    (items : List α) (ws : List W) : Except (Stop E) (List O × List W) :=
  forEach t flt (pushItem ser) anySer (fun st => (st.1, st.2 ++ [extraWarning])) strict items ([], ws)

end PC.SerTuple
