/-
Model of how serialisers in recursive schemas decide whether unions try their members a second time:
`retry_with_lax_check` of the serialisers, with the caches of `src/definitions.rs`.
-/

namespace PC.LaxRetry

/-- What `retry_with_lax_check` depends on in a serialiser.

* `leaf b`: a serialiser with a fixed answer: true for models (`src/serializers/type_serializers/model.rs`
  261-263), dataclasses (`dataclass.rs` 231-233), tuples (`tuple.rs` 156-158), integers (`simple.rs` 171-173,
  184), false for those with the default (`src/serializers/shared.rs` 309-312: strings, dicts, sets, typed
  dicts, ...) and enums without a serialiser (`enum_.rs` 119-124).
* `or a b`: two serialisers asked in order: functions (`function.rs` 183-188, 424-426), unions (`union.rs`
  184-186, 289-291; more than two members nest to the right, an empty union is `leaf false`).
* `ref i`: the `i`th reference to a definition in the schema (`definitions.rs` 37-40).

Serialisers that pass the question on (`list.rs` 131-133, `nullable.rs` 78-80, `with_default.rs` 70-72,
`enum_.rs` 121, `src/serializers/prebuilt.rs` 67-69) are identified with the serialiser they pass it to. -/
inductive Ser where
  | leaf (b : Bool)
  | or (a b : Ser)
  | ref (i : Nat)
deriving DecidableEq, Repr

/-- The caches of all references: `RecursionSafeCache`, `src/definitions.rs` 196-202. `cached i` is `cache`,
`busy` lists the references with `in_recursion` set. -/
structure Caches where
  cached : Nat → Option Bool
  busy : List Nat

/-- The caches of a serialiser that has just been built: `src/definitions.rs` 213-220,
`src/serializers/type_serializers/definitions.rs` 77-82. -/
def Caches.new : Caches := ⟨fun _ => none, []⟩

/-- The value of a cache is set: `OnceLock::get_or_init` at `src/definitions.rs` 238. -/
def Caches.set (s : Caches) (i : Nat) (b : Bool) : Caches :=
  { s with cached := fun j => if j = i then some b else s.cached j }

/-- `retry_with_lax_check` of a serialiser, given that of references: the dispatch of
`src/serializers/shared.rs` 309-312 and the implementations listed at `Ser`. The answer `none` is a
computation that does not come to an end within the fuel. -/
def askWith (ref : Nat → Caches → Option (Bool × Caches)) : Ser → Caches → Option (Bool × Caches)
  | .leaf b, s => some (b, s)
  | .or a b, s =>
    match askWith ref a s with
    | none => none
    | some (true, s') => some (true, s')
    | some (false, s') => askWith ref b s'
  | .ref i, s => ref i s

/-- `retry_with_lax_check` of a reference: `src/serializers/type_serializers/definitions.rs` 126-130 with
`RecursionSafeCache::get_or_init` (`src/definitions.rs` 223-241). `body i` is the definition the reference
points to. The fuel bounds the depth of nested references. Simplification: one thread. -/
def askRef (body : Nat → Ser) : Nat → Nat → Caches → Option (Bool × Caches)
  | 0, _, _ => none
  | n + 1, i, s =>
    match s.cached i with
    | some b => some (b, s)
    | none =>
      if i ∈ s.busy then some (false, s)
      else
        match askWith (askRef body n) (body i) { s with busy := i :: s.busy } with
        | none => none
        | some (b, s') => some (b, { s'.set i b with busy := s'.busy.erase i })

/-- `retry_with_lax_check` of any serialiser: `src/serializers/shared.rs` 309-312. -/
def ask (body : Nat → Ser) (fuel : Nat) (x : Ser) (s : Caches) : Option (Bool × Caches) :=
  askWith (askRef body fuel) x s

/-- The question is asked of several serialisers of one schema in turn, as unions do when they serialise
(`src/serializers/type_serializers/union.rs` 131-182) and `repr` does for every reference it prints
(`src/serializers/type_serializers/definitions.rs` 55-62). The answer is the last one. -/
def askAll (body : Nat → Ser) (fuel : Nat) : List Ser → Ser → Caches → Option Bool
  | [], x, s => (ask body fuel x s).map (·.1)
  | y :: ys, x, s =>
    match ask body fuel y s with
    | none => none
    | some (_, s') => askAll body fuel ys x s'

end PC.LaxRetry
