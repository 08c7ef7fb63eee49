import Verif.Model.Filter

/-
Lazily validated and lazily serialised generators.
-/

namespace PC.Gen
variable {α β ε : Type}

/-- What a Python iterator answers to one call of `next`: an item, an exception, or the end. -/
inductive Answer (α ε : Type) where
  | item (x : α)
  | raised (e : ε)
  | done
  deriving DecidableEq

/-- `GenericPyIterator`, `src/input/return_enums.rs:410-415`.  The wrapped Python iterator is given by its
answers to successive calls (`answers n` is the answer to call number `n`), which may be anything: it may
raise and go on, or yield again after its end. `obj` (only shown in errors) is left out. -/
structure PyIter (α ε : Type) where
  answers : Nat → Answer α ε
  calls : Nat
  index : Nat

/-- `GenericPyIterator::next`, `src/input/return_enums.rs:418-430`. -/
def PyIter.next (it : PyIter α ε) : Except ε (Option (α × Nat)) × PyIter α ε :=
  match it.answers it.calls with
  | .item x => (.ok (some (x, it.index)), { it with calls := it.calls + 1, index := it.index + 1 })
  | .raised e => (.error e, { it with calls := it.calls + 1 })
  | .done => (.ok none, { it with calls := it.calls + 1 })

/-- `GenericJsonIterator`, `src/input/return_enums.rs:443-447`. -/
structure JsonIter (α : Type) where
  array : List α
  index : Nat

/-- `GenericJsonIterator::next`, `src/input/return_enums.rs:450-461`. `none` inside `error` cannot occur:
the bounds check is that of `List.get`. -/
def JsonIter.next (it : JsonIter α) : Option (α × Nat) × JsonIter α :=
  if h : it.index < it.array.length then
    (some (it.array[it.index], it.index), { it with index := it.index + 1 })
  else (none, it)

/-- `GenericIterator`, `src/input/return_enums.rs:368-372`. -/
inductive Iter (α ε : Type) where
  | py (it : PyIter α ε)
  | json (it : JsonIter α)

/-- The two arms of the final `match`, `src/validators/generator.rs:186-189`: `next` of either iterator. -/
def Iter.next : Iter α ε → Except ε (Option (α × Nat)) × Iter α ε
  | .py it => (it.next.1, .py it.next.2)
  | .json it => (.ok it.next.1, .json it.next.2)

/-- The getter `index`, `src/validators/generator.rs:192-198`. -/
def Iter.index : Iter α ε → Nat
  | .py it => it.index
  | .json it => it.index

/-- What one call of `next` on the validated generator raises: an exception of the source, the error of
the item validator, `too_long`, `too_short` (`src/validators/generator.rs:126-184`). -/
inductive GErr (ε : Type) where
  | source (e : ε)
  | item (e : ε)
  | tooLong (maxLength : Nat)
  | tooShort (minLength actual : Nat)
  deriving DecidableEq

/-- The result of `__next__`: `Ok(Some _)`, `Ok(None)` (which Python sees as `StopIteration`), `Err`. -/
inductive Outcome (β ε : Type) where
  | yield (b : β)
  | stop
  | raise (e : GErr ε)
  deriving DecidableEq

/-- `ValidatorIterator`, `src/validators/generator.rs:99-108`.  `validator` takes the index, which becomes
the outer location of its errors, and the item (`InternalValidator::validate`, lines 306-340, is a
parameter; its own mutable state, the recursion guard and exactness, is left out). `raw` converts an item
that is not validated (`into_pyobject`, line 155). -/
structure VIter (α β ε : Type) where
  iterator : Iter α ε
  validator : Option (Nat → α → Except ε β)
  raw : α → β
  minLength : Option Nat
  maxLength : Option Nat

/-- The test against `max_length`, `src/validators/generator.rs:129-130`: the maximum, if item number `index`
is past it. -/
def exceeded (maxLength : Option Nat) (index : Nat) : Option Nat :=
  match maxLength with
  | some m => if index ≥ m then some m else none
  | none => none

/-- `ValidatorIterator::__next__`, `src/validators/generator.rs:116-190`. -/
def VIter.next (g : VIter α β ε) : Outcome β ε × VIter α β ε :=
  let (r, it') := g.iterator.next
  let g' := { g with iterator := it' }
  match r with
  | .error e => (.raise (.source e), g')
  | .ok (some (x, index)) =>
    match g.validator with
    | some v =>
      match exceeded g.maxLength index with
      | some m => (.raise (.tooLong m), g')
      | none =>
        match v index x with
        | .ok b => (.yield b, g')
        | .error e => (.raise (.item e), g')
    | none => (.yield (g.raw x), g')
  | .ok none =>
    match g.minLength with
    | some m => if it'.index < m then (.raise (.tooShort m it'.index), g') else (.stop, g')
    | none => (.stop, g')

/-- `GeneratorValidator::validate`, `src/validators/generator.rs:63-92`, on an input that can be iterated
over (`validate_iter`: `src/input/input_python.rs:489-495`, `src/input/input_json.rs:260-278`); nothing is
taken from the input yet. -/
def validate (it : Iter α ε) (validator : Option (Nat → α → Except ε β)) (raw : α → β)
    (minLength maxLength : Option Nat) : VIter α β ε :=
  ⟨it, validator, raw, minLength, maxLength⟩

/-- A Python iterator at its start: `From<&Bound<PyAny>> for GenericIterator`,
`src/input/return_enums.rs:399-408`. -/
def ofPy (answers : Nat → Answer α ε) : Iter α ε := .py ⟨answers, 0, 0⟩

/-- A JSON array at its start: `From<JsonArray> for GenericIterator`, `src/input/return_enums.rs:392-397`. -/
def ofJson (array : List α) : Iter α ε := .json ⟨array, 0⟩

/-- The caller calls `next` `n` times, whatever the outcomes (not code of the repository). -/
def VIter.after (g : VIter α β ε) : Nat → VIter α β ε
  | 0 => g
  | n + 1 => (g.after n).next.2

/-- The outcome of call number `n`, the first being number 0 (not code of the repository). -/
def VIter.outcome (g : VIter α β ε) (n : Nat) : Outcome β ε := (g.after n).next.1

/-- How a `for` loop or `list(…)` over the generator ends (not code of the repository): normally with the
items, with an exception, or not within `fuel` calls. -/
inductive Loop (β ε : Type) where
  | finished (items : List β)
  | raised (items : List β) (e : GErr ε)
  | running (items : List β)

/-- A `for` loop over the generator, at most `fuel` calls of `next` (not code of the repository). -/
def VIter.loop (g : VIter α β ε) : Nat → List β → Loop β ε
  | 0, acc => .running acc
  | fuel + 1, acc =>
    match g.next with
    | (.yield b, g') => g'.loop fuel (acc ++ [b])
    | (.stop, _) => .finished acc
    | (.raise e, _) => .raised acc e

/-! ### Serialisation -/

/-- What serialising a generator may raise: an error of the source, of the filter, of the item
serialiser. -/
inductive SErr (ε : Type) where
  | source (e : ε)
  | filter (e : Filter.Err)
  | item (e : ε)

/-- `SerializationIterator`, `src/serializers/type_serializers/generator.rs:155-164`: `rest` is what the
Python iterator has not yielded yet. -/
structure SIter (α β ε : Type) where
  rest : List (Except ε α)
  index : Nat
  filter : Filter.Filt
  incl : Option Filter.FVal
  excl : Option Filter.FVal
  ser : α → Option Filter.FVal → Option Filter.FVal → Except ε β

/-- The loop of `SerializationIterator::__next__`,
`src/serializers/type_serializers/generator.rs:220-240`. Simplification: `final_check` of the warnings
(line 235) is not modelled here, but in `Model/LazyWarn.lean`. -/
def siterNext (f : Filter.Filt) (incl excl : Option Filter.FVal)
    (ser : α → Option Filter.FVal → Option Filter.FVal → Except ε β) :
    List (Except ε α) → Nat → Except (SErr ε) (Option β) × List (Except ε α) × Nat
  | [], i => (.ok none, [], i)
  | .error e :: rest, i => (.error (.source e), rest, i)
  | .ok x :: rest, i =>
    match Filter.indexFilter f i incl excl none with
    | .error e => (.error (.filter e), rest, i)
    | .ok none => siterNext f incl excl ser rest (i + 1)
    | .ok (some (ni, ne)) =>
      match ser x ni ne with
      | .error e => (.error (.item e), rest, i + 1)
      | .ok b => (.ok (some b), rest, i + 1)

/-- `SerializationIterator::__next__`. -/
def SIter.next (s : SIter α β ε) : Except (SErr ε) (Option β) × SIter α β ε :=
  let r := siterNext s.filter s.incl s.excl s.ser s.rest s.index
  (r.1, { s with rest := r.2.1, index := r.2.2 })

/-- The JSON mode loop, `src/serializers/type_serializers/generator.rs:66-82` (`to_python`) and
`:118-139` (`serde_serialize`). -/
def jsonLoop (f : Filter.Filt) (incl excl : Option Filter.FVal)
    (ser : α → Option Filter.FVal → Option Filter.FVal → Except ε β) :
    List (Except ε α) → Nat → List β → Except (SErr ε) (List β)
  | [], _, out => .ok out
  | .error e :: _, _, _ => .error (.source e)
  | .ok x :: rest, i, out =>
    match Filter.indexFilter f i incl excl none with
    | .error e => .error (.filter e)
    | .ok none => jsonLoop f incl excl ser rest (i + 1) out
    | .ok (some (ni, ne)) =>
      match ser x ni ne with
      | .error e => .error (.item e)
      | .ok b => jsonLoop f incl excl ser rest (i + 1) (out ++ [b])

/-- A `for` loop over the serialised generator, at most `fuel` calls (not code of the repository). -/
def SIter.loop (s : SIter α β ε) : Nat → List β → Option (Except (SErr ε) (List β))
  | 0, _ => none
  | fuel + 1, acc =>
    match s.next with
    | (.ok (some b), s') => s'.loop fuel (acc ++ [b])
    | (.ok none, _) => some (.ok acc)
    | (.error e, _) => some (.error e)

end PC.Gen
