/-
Model of `src/recursion_guard.rs`.
-/

namespace PC.Guard

/-- `RecursionKey`, `src/recursion_guard.rs:4-11`: (object id, node id). -/
abbrev Key := Nat × Nat

/-- `RecursionError`, `src/recursion_guard.rs:21-26`. -/
inductive RecErr where
  | cyclic
  | depth
  deriving DecidableEq, Repr

/-- `ARRAY_SIZE`, `src/recursion_guard.rs:134`. -/
def arraySize : Nat := 16

/-- `RecursionStack`, `src/recursion_guard.rs:137-143`.  `array` holds the initialised
prefix (`len` entries) of the fixed size buffer; `set` is an `AHashSet`, modelled by a list
used only through membership, insertion of absent keys and erasure. -/
inductive Stack where
  | array (data : List Key)
  | set (s : List Key)
  deriving DecidableEq, Repr

/-- `HashSet::insert`: adds the key unless present, returns whether it was added. -/
def setInsert (s : List Key) (v : Key) : Bool × List Key :=
  if v ∈ s then (false, s) else (true, v :: s)

/-- The loop building the set from the full array, `src/recursion_guard.rs:173-177`. -/
def setOfArray (data : List Key) : List Key :=
  data.foldl (fun s k => (setInsert s k).2) []

/-- `RecursionStack::insert`, `src/recursion_guard.rs:158-187`. -/
def Stack.insert (st : Stack) (v : Key) : Bool × Stack :=
  match st with
  | .array data =>
    if data.length < arraySize then
      if v ∈ data then (false, .array data) else (true, .array (data ++ [v]))
    else
      let r := setInsert (setOfArray data) v
      (r.1, .set r.2)
  | .set s =>
    let r := setInsert s v
    (r.1, .set r.2)

/-- `RecursionStack::remove`, `src/recursion_guard.rs:189-203`.  `none` is the panic of
`expect("remove from empty recursion guard")` or `assert!("remove did not match insert")`. -/
def Stack.remove (st : Stack) (v : Key) : Option Stack :=
  match st with
  | .array data =>
    match data.getLast? with
    | none => none
    | some last => if last = v then some (.array data.dropLast) else none
  | .set s => some (.set (s.erase v))

/-- Build-time platform choice, `src/recursion_guard.rs:75-86,96-121`: the limit and which
of the two `incr_depth` bodies is compiled. -/
structure Platform where
  limit : Nat
  saturating : Bool
  deriving DecidableEq, Repr

/-- The platforms that exist: release CPython on Linux/macOS uses `checked_add` with limit
255, all others use `saturating_add` with a limit between 29 and 235. -/
def Platform.Valid (p : Platform) : Prop :=
  (p.saturating = false ∧ p.limit = 255) ∨
  (p.saturating = true ∧ (p.limit = 49 ∨ p.limit = 99 ∨ p.limit = 29 ∨ p.limit = 79 ∨ p.limit = 235))

/-- The default (release, CPython, not Windows) platform. -/
def Platform.release : Platform := ⟨255, false⟩

/-- `RecursionState`, `src/recursion_guard.rs:67-72`; `depth` is a `u8`. -/
structure State where
  ids : Stack
  depth : Nat
  deriving DecidableEq, Repr

/-- `Default for RecursionState`/`RecursionStack`, `src/recursion_guard.rs:66,145-152`. -/
def State.init : State := ⟨.array [], 0⟩

/-- `RecursionState::incr_depth`, both bodies, `src/recursion_guard.rs:99-121`.
Returns "limit hit" and the new state. -/
def State.incrDepth (p : Platform) (st : State) : Bool × State :=
  if p.saturating then
    let d := min (st.depth + 1) 255
    (decide (d > p.limit), { st with depth := d })
  else if st.depth + 1 ≤ 255 then
    (false, { st with depth := st.depth + 1 })
  else (true, st)

/-- `RecursionState::decr_depth`, `src/recursion_guard.rs:123-126`. -/
def State.decrDepth (st : State) : State := { st with depth := st.depth - 1 }

/-- `RecursionGuard::new`, `src/recursion_guard.rs:32-43`. -/
def enter (p : Platform) (st : State) (k : Key) : Except RecErr Unit × State :=
  let r := st.ids.insert k
  let st1 : State := { st with ids := r.2 }
  if !r.1 then (.error .cyclic, st1)
  else
    let d := st1.incrDepth p
    if d.1 then (.error .depth, d.2) else (.ok (), d.2)

/-- `Drop for RecursionGuard`, `src/recursion_guard.rs:51-58`; `none` is a panic. -/
def leave (st : State) (k : Key) : Option State :=
  let st1 := st.decrDepth
  match st1.ids.remove k with
  | none => none
  | some ids => some { st1 with ids := ids }

/-- The shape of one validation (or serialisation) run as seen by the guard: each node is an
attempt to take the guard for a key; its children are the attempts made while it is held.
Every caller (`src/validators/definitions.rs:83-91,115-121`, `src/serializers/extra.rs`,
`src/serializers/type_serializers/definitions.rs`) takes the guard, runs the body and drops
it by RAII whatever the body returns; if the guard is refused the body is not run.  Early
aborts of a body are just shorter child lists, so quantifying over all forests covers every
control flow. -/
inductive Call where
  | node (k : Key) (children : List Call)

/-- What a run shows, in call order: an attempt was refused (and its body not run), or the
guard was held while the listed attempts were made. -/
inductive Outcome where
  | refused (k : Key) (e : RecErr)
  | held (k : Key) (inner : List Outcome)

mutual
/-- Runs one attempt: `RecursionGuard::new`, body, drop. `none` is a panic. -/
def runCall (p : Platform) (st : State) : Call → Option (Outcome × State)
  | .node k children =>
    match enter p st k with
    | (.error e, st1) => some (.refused k e, st1)
    | (.ok (), st1) =>
      match runCalls p st1 children with
      | none => none
      | some (outs, st2) =>
        match leave st2 k with
        | none => none
        | some st3 => some (.held k outs, st3)
/-- Runs attempts one after another with the same state. -/
def runCalls (p : Platform) (st : State) : List Call → Option (List Outcome × State)
  | [] => some ([], st)
  | c :: cs =>
    match runCall p st c with
    | none => none
    | some (o, st1) =>
      match runCalls p st1 cs with
      | none => none
      | some (os, st2) => some (o :: os, st2)
end

end PC.Guard
