import Verif.Model.Generator
import Verif.Model.SerFunction

/-
Model of the warnings of generators, serialised lazily in Python mode and at once in JSON mode,
`src/serializers/type_serializers/generator.rs`.
-/

namespace PC.LazyWarn
open PC.Filter (FVal Filt indexFilter)
open PC.SerFunction (WarnMode)

/-- What does not change from call to call, `SerializationIterator`,
`src/serializers/type_serializers/generator.rs:155-164`: the warnings mode, the filter, include and exclude, and the item
serialiser, which returns a value or an exception, and the warnings it registers (in the order of time, also if it
fails).  `raises` says for which warnings `warnings.warn` raises, by the filters of Python. -/
structure Env (α β ε ω : Type) where
  mode : WarnMode
  raises : List ω → Option ε
  filter : Filt
  incl : Option FVal
  excl : Option FVal
  ser : α → Option FVal → Option FVal → Except ε β × List ω

/-- The exceptions: of the source, of the filter, of the item serialiser, of `warnings.warn`, and
`PydanticSerializationError` with the warnings, `src/serializers/extra.rs:474`. -/
inductive Exc (ε ω : Type) where
  | source (e : ε)
  | filter (e : Filter.Err)
  | item (e : ε)
  | warned (e : ε)
  | serError (ws : List ω)

/-- The state: what the source has not yielded yet, the attribute `index`, and the warnings collected, which
`ExtraOwned::new` copied from the call of `to_python`, `src/serializers/extra.rs:254`, and which live as long as the
iterator, `src/serializers/extra.rs:276-278`. -/
structure St (α ε ω : Type) where
  rest : List (Except ε α)
  index : Nat
  warnings : List ω

/-- `CollectWarnings::register_warning` for some warnings, `src/serializers/extra.rs:406-410`. -/
def register {ω : Type} (m : WarnMode) (old new : List ω) : List ω := if m = .none then old else old ++ new

/-- `CollectWarnings::final_check`, `src/serializers/extra.rs:457-476`: an exception or not, and the message issued.
The warnings collected stay. -/
def finalCheck {α β ε ω : Type} (E : Env α β ε ω) (ws : List ω) : Option (Exc ε ω) × Option (List ω) :=
  match E.mode, ws with
  | .none, _ => (none, none)
  | _, [] => (none, none)
  | .warn, ws => ((E.raises ws).map .warned, some ws)
  | .error, ws => (some (.serError ws), none)

/-- The end of a call of `next`: an item, the end of the iteration, or an exception; and the warning issued. -/
structure Out (β ε ω : Type) where
  result : Except (Exc ε ω) (Option β)
  issued : Option (List ω)

/-- The loop of `SerializationIterator::__next__`, `src/serializers/type_serializers/generator.rs:220-243`. -/
def next {α β ε ω : Type} (E : Env α β ε ω) :
    List (Except ε α) → Nat → List ω → Out β ε ω × St α ε ω
  | [], i, ws => (⟨.ok none, none⟩, ⟨[], i, ws⟩)
  | .error e :: rest, i, ws => (⟨.error (.source e), none⟩, ⟨rest, i, ws⟩)
  | .ok x :: rest, i, ws =>
    match indexFilter E.filter i E.incl E.excl none with
    | .error e => (⟨.error (.filter e), none⟩, ⟨rest, i, ws⟩)
    | .ok none => next E rest (i + 1) ws
    | .ok (some (ni, ne)) =>
      match E.ser x ni ne with
      | (.error e, new) => (⟨.error (.item e), none⟩, ⟨rest, i + 1, register E.mode ws new⟩)
      | (.ok b, new) =>
        match finalCheck E (register E.mode ws new) with
        | (some e, issued) => (⟨.error e, issued⟩, ⟨rest, i + 1, register E.mode ws new⟩)
        | (none, issued) => (⟨.ok (some b), issued⟩, ⟨rest, i + 1, register E.mode ws new⟩)

/-- `SerializationIterator::__next__`, as a step of the state. -/
def step {α β ε ω : Type} (E : Env α β ε ω) (s : St α ε ω) : Out β ε ω × St α ε ω :=
  next E s.rest s.index s.warnings

/-- The state after `n` calls of `next` (not code of the repository). -/
def after {α β ε ω : Type} (E : Env α β ε ω) (s : St α ε ω) : Nat → St α ε ω
  | 0 => s
  | n + 1 => (step E (after E s n)).2

/-- What call number `n` does, the first being number 0 (not code of the repository). -/
def call {α β ε ω : Type} (E : Env α β ε ω) (s : St α ε ω) (n : Nat) : Out β ε ω := (step E (after E s n)).1

/-- The loop of JSON mode, `src/serializers/type_serializers/generator.rs:66-82` and 118-139: the list and the warnings
collected; `final_check` comes at the end of the whole call. -/
def jsonLoop {α β ε ω : Type} (E : Env α β ε ω) :
    List (Except ε α) → Nat → List ω → List β → Except (Exc ε ω) (List β) × List ω
  | [], _, ws, out => (.ok out, ws)
  | .error e :: _, _, ws, _ => (.error (.source e), ws)
  | .ok x :: rest, i, ws, out =>
    match indexFilter E.filter i E.incl E.excl none with
    | .error e => (.error (.filter e), ws)
    | .ok none => jsonLoop E rest (i + 1) ws out
    | .ok (some (ni, ne)) =>
      match E.ser x ni ne with
      | (.error e, new) => (.error (.item e), register E.mode ws new)
      | (.ok b, new) => jsonLoop E rest (i + 1) (register E.mode ws new) (out ++ [b])

/-- A whole call of a serialiser for a generator in JSON mode: the loop, then `final_check`,
`src/serializers/mod.rs:142-154`. -/
def toJson {α β ε ω : Type} (E : Env α β ε ω) (xs : List (Except ε α)) : Except (Exc ε ω) (List β) × Option (List ω) :=
  match jsonLoop E xs 0 [] [] with
  | (.error e, _) => (.error e, none)
  | (.ok out, ws) =>
    match finalCheck E ws with
    | (some e, issued) => (.error e, issued)
    | (none, issued) => (.ok out, issued)

end PC.LazyWarn
