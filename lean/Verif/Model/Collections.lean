import Verif.Model.State

/-
Models of the collection validators: list, set / frozenset, dict, tuple, and of the shared
iteration helpers of `src/input/return_enums.rs`.

An iterator over the input is the list of what it yields: a value or a Python exception
(`Except PyErr α`).  Item validators are parameters.
-/

namespace PC.Coll
variable {α : Type}

/-! ### Look-ahead enumeration -/

/-- `EnumerateLastPartial`, `src/validators/validation_state.rs:137-142`; `iter` is what the
wrapped iterator has not yielded yet. -/
structure LookAhead (ι : Type) where
  iter : List ι
  index : Nat
  nextItem : Option ι
  mode : PartialMode

namespace LookAhead
variable {ι : Type}

/-- `EnumerateLastPartial::new`, `src/validators/validation_state.rs:144-152`. -/
def new (iter : List ι) (mode : PartialMode) : LookAhead ι :=
  ⟨iter.tail, 0, iter.head?, mode⟩

/-- `EnumerateLastPartial::next`, `src/validators/validation_state.rs:158-163`. -/
def next (l : LookAhead ι) : Option (Nat × Bool × ι) × LookAhead ι :=
  let l' : LookAhead ι := ⟨l.iter.tail, l.index, l.iter.head?, l.mode⟩
  match l.nextItem with
  | none => (none, l')
  | some a => (some (l.index, l.mode.isActive && l'.nextItem.isNone, a), { l' with index := l.index + 1 })

end LookAhead

/-! ### Lists -/

/-- `MaxLengthCheck`, `src/input/return_enums.rs:63-69`. -/
structure MaxLengthCheck (α : Type) where
  current : Nat
  maxLength : Option Nat
  fieldType : String
  input : α
  actualLength : Option Nat

namespace MaxLengthCheck

/-- `MaxLengthCheck::new`, `src/input/return_enums.rs:72-85`. -/
def new (maxLength : Option Nat) (fieldType : String) (input : α) (actualLength : Option Nat) :
    MaxLengthCheck α := ⟨0, maxLength, fieldType, input, actualLength⟩

/-- `MaxLengthCheck::incr`, `src/input/return_enums.rs:89-105`. -/
def incr (c : MaxLengthCheck α) : ValResult α (MaxLengthCheck α) :=
  match c.maxLength with
  | some m =>
    if c.current + 1 > m then .error (.new (.tooLong c.fieldType m c.actualLength) c.input)
    else .ok { c with current := c.current + 1 }
  | none => .ok c

end MaxLengthCheck

/-- `any_next_error!`, `src/input/return_enums.rs:108-119`. -/
def anyNextError (e : PyErr) (input : α) (index : Nat) : ValError α :=
  .newWithLoc (.iterationError e.name) input (.i index)

/-- `state.allow_partial = match is_last_partial {..}`, `src/input/return_enums.rs:136-139`. -/
def setPartial (saved : PartialMode) (isLast : Bool) (st : VState α) : VState α :=
  { st with allowPartial := if isLast then saved else .off }

/-- Outcome of an iteration loop: the result, the final state and the enumerated items the loop
did not get to. -/
structure Run (α β ι : Type) where
  result : ValResult α β
  state : VState α
  unvisited : List ι

/-- The loop of `validate_iter_to_vec`, `src/input/return_enums.rs:135-164`, over the
enumerated items; `saved` is the partial mode on entry. -/
def vecLoop (v : Validator α α) (saved : PartialMode) (failFast : Bool) :
    List (Nat × Bool × Except PyErr α) → MaxLengthCheck α → List α → List (LineError α) →
    VState α → Run α (List α) (Nat × Bool × Except PyErr α)
  | [], _, out, errs, st => ⟨if errs.isEmpty then .ok out else .error (.lineErrors errs), st, []⟩
  | (index, isLast, itemResult) :: rest, mlc, out, errs, st =>
    let st := setPartial saved isLast st
    match itemResult with
    | .error e => ⟨.error (anyNextError e mlc.input index), st, rest⟩
    | .ok item =>
      let r := v item st
      match r.1 with
      | .ok o =>
        match mlc.incr with
        | .error e => ⟨.error e, r.2, rest⟩
        | .ok mlc => vecLoop v saved failFast rest mlc (out ++ [o]) errs r.2
      | .error (.lineErrors ls) =>
        match mlc.incr with
        | .error e => ⟨.error e, r.2, rest⟩
        | .ok mlc =>
          if isLast then vecLoop v saved failFast rest mlc out errs r.2
          else
            let errs := errs ++ ls.map (·.withOuterLocation (.i index))
            if failFast then ⟨.error (.lineErrors errs), r.2, rest⟩
            else vecLoop v saved failFast rest mlc out errs r.2
      | .error .omitted => vecLoop v saved failFast rest mlc out errs r.2
      | .error e => ⟨.error e, r.2, rest⟩

/-- `validate_iter_to_vec`, `src/input/return_enums.rs:122-165`. -/
def validateIterToVec (v : Validator α α) (mlc : MaxLengthCheck α) (failFast : Bool)
    (iter : List (Except PyErr α)) (st : VState α) :
    Run α (List α) (Nat × Bool × Except PyErr α) :=
  vecLoop v st.allowPartial failFast (enumerateLastPartial st.allowPartial 0 iter) mlc [] [] st

/-- `no_validator_iter_to_vec`, `src/input/return_enums.rs:277-290`, from position `index` with
the items collected so far.  `to_object` does not fail. -/
def noValidatorLoop (input : α) :
    List (Except PyErr α) → Nat → MaxLengthCheck α → List α → ValResult α (List α)
  | [], _, _, out => .ok out
  | .error e :: _, index, _, _ => .error (anyNextError e input index)
  | .ok v :: rest, index, mlc, out =>
    match mlc.incr with
    | .error e => .error e
    | .ok mlc => noValidatorLoop input rest (index + 1) mlc (out ++ [v])

/-- `length_check!`, `src/validators/list.rs:41-74`. -/
def lengthCheck (input : α) (fieldType : String) (minLength maxLength : Option Nat) (len : Nat) :
    ValResult α Unit :=
  if let some m := minLength.filter (len < ·) then .error (.new (.tooShort fieldType m len) input)
  else if let some m := maxLength.filter (· < len) then
    .error (.new (.tooLong fieldType m (some len)) input)
  else .ok ()

/-- `min_length_check!`, `src/validators/list.rs:77-95`. -/
def minLengthCheck (input : α) (fieldType : String) (minLength : Option Nat) (len : Nat) :
    ValResult α Unit :=
  if let some m := minLength.filter (len < ·) then .error (.new (.tooShort fieldType m len) input)
  else .ok ()

/-- What `validate_list` / `validate_set` / `validate_tuple` return (traits `ValidatedList`, ..,
`src/input/input_abstract.rs:259-278`): the items, the length if known, whether it is a Python list. -/
structure Seq (α : Type) where
  items : List (Except PyErr α)
  len : Option Nat
  isPyList : Bool

/-- The fields of `ListValidator`, `src/validators/list.rs:15-22`, with the parameters standing
for `Input::validate_list` (by strictness, with the exactness of the match) and for building
the output list. -/
structure ListV (α : Type) where
  strict : Bool
  item : Option (Validator α α)
  minLength : Option Nat
  maxLength : Option Nat
  failFast : Bool
  asList : Bool → α → ValResult α (Seq α × Exactness)
  build : List α → α

/-- `ListValidator::validate`, `src/validators/list.rs:122-160`.  The Python list of the case
without item validator is `seq.items` with its length. -/
def ListV.validate (l : ListV α) : Validator α α := fun input st =>
  match l.asList (st.strictOr l.strict) input with
  | .error e => (.error e, st)
  | .ok (seq, ex) =>
    let st := st.floorExactness ex
    let mlc := MaxLengthCheck.new l.maxLength "List" input seq.len
    let finish (r : ValResult α (List α)) (st : VState α) : ValResult α α × VState α :=
      match r with
      | .error e => (.error e, st)
      | .ok output =>
        match minLengthCheck input "List" l.minLength output.length with
        | .error e => (.error e, st)
        | .ok () => (.ok (l.build output), st)
    match l.item with
    | some v =>
      let r := validateIterToVec v mlc l.failFast seq.items st
      finish r.result r.state
    | none =>
      if seq.isPyList then
        match lengthCheck input "List" l.minLength l.maxLength seq.items.length with
        | .error e => (.error e, st)
        | .ok () => (.ok (l.build (seq.items.filterMap (·.toOption))), st)
      else finish (noValidatorLoop input seq.items 0 mlc []) st

/-! ### Sets -/

/-- Hashing and equality of Python objects: `hashErr x` is the exception `hash(x)` raises with
whether it is a `TypeError`; `same` is "equal and same hash". -/
structure Hashing (α : Type) where
  same : α → α → Bool
  hashErr : α → Option (Bool × PyErr)

/-- `BuildSet::build_add` (Python `set.add`), `src/input/return_enums.rs:173-195`: the set is the
list of its members in order of insertion. -/
def Hashing.add (h : Hashing α) (s : List α) (x : α) : Except (Bool × PyErr) (List α) :=
  match h.hashErr x with
  | some e => .error e
  | none => .ok (if s.any (h.same · x) then s else s ++ [x])

/-- `validate_add`, `src/input/return_enums.rs:197-214`. -/
def validateAdd (h : Hashing α) (v : Validator α α) (set : List α) (item : α) (st : VState α) :
    ValResult α (List α) × VState α :=
  let r := v item st
  match r.1 with
  | .error e => (.error e, r.2)
  | .ok o =>
    match h.add set o with
    | .ok set => (.ok set, r.2)
    | .error (isTypeError, e) =>
      if isTypeError then (.error (.new .setItemNotHashable item), r.2)
      else (.error (.internal e), r.2)

/-- The loop of `validate_iter_to_set`, `src/input/return_enums.rs:232-274`. -/
def setLoop (h : Hashing α) (v : Validator α α) (input : α) (fieldType : String)
    (maxLength : Option Nat) (saved : PartialMode) (failFast : Bool) :
    List (Nat × Bool × Except PyErr α) → List α → List (LineError α) → VState α →
    Run α (List α) (Nat × Bool × Except PyErr α)
  | [], set, errs, st => ⟨if errs.isEmpty then .ok set else .error (.lineErrors errs), st, []⟩
  | (index, isLast, itemResult) :: rest, set, errs, st =>
    let st := setPartial saved isLast st
    match itemResult with
    | .error e => ⟨.error (anyNextError e input index), st, rest⟩
    | .ok item =>
      let r := validateAdd h v set item st
      let continueWith (set : List α) (errs : List (LineError α)) :=
        if failFast && !errs.isEmpty then ⟨.error (.lineErrors errs), r.2, rest⟩
        else setLoop h v input fieldType maxLength saved failFast rest set errs r.2
      match r.1 with
      | .ok set =>
        match maxLength.filter (· < set.length) with
        | some m => ⟨.error (.new (.tooLong fieldType m none) input), r.2, rest⟩
        | none => continueWith set errs
      | .error (.lineErrors ls) =>
        continueWith set (if isLast then errs else errs ++ ls.map (·.withOuterLocation (.i index)))
      | .error .omitted => continueWith set errs
      | .error e => ⟨.error e, r.2, rest⟩

/-- `validate_iter_to_set`, `src/input/return_enums.rs:217-275`, into an empty set. -/
def validateIterToSet (h : Hashing α) (v : Validator α α) (input : α) (fieldType : String)
    (maxLength : Option Nat) (failFast : Bool) (iter : List (Except PyErr α)) (st : VState α) :
    Run α (List α) (Nat × Bool × Except PyErr α) :=
  setLoop h v input fieldType maxLength st.allowPartial failFast
    (enumerateLastPartial st.allowPartial 0 iter) [] [] st

/-- `SetValidator`, `src/validators/set.rs:12-19`, and `FrozenSetValidator`,
`src/validators/frozenset.rs:14-21`; `fieldType` is `"Set"` or `"Frozenset"`. -/
structure SetV (α : Type) where
  strict : Bool
  item : Validator α α
  minLength : Option Nat
  maxLength : Option Nat
  failFast : Bool
  fieldType : String
  hashing : Hashing α
  asSet : Bool → α → ValResult α (Seq α × Exactness)
  build : List α → α

/-- `SetValidator::validate`, `src/validators/set.rs:62-81`, and
`FrozenSetValidator::validate`, `src/validators/frozenset.rs:31-50`. -/
def SetV.validate (s : SetV α) : Validator α α := fun input st =>
  match s.asSet (st.strictOr s.strict) input with
  | .error e => (.error e, st)
  | .ok (seq, ex) =>
    let st := st.floorExactness ex
    let r := validateIterToSet s.hashing s.item input s.fieldType s.maxLength s.failFast seq.items st
    match r.result with
    | .error e => (.error e, r.state)
    | .ok set =>
      match minLengthCheck input s.fieldType s.minLength set.length with
      | .error e => (.error e, r.state)
      | .ok () => (.ok (s.build set), r.state)

/-! ### Dicts -/

/-- `PyDict::set_item`: replaces the value of an equal key in place, otherwise appends. -/
def setItem (h : Hashing α) : List (α × α) → α → α → List (α × α)
  | [], k, v => [(k, v)]
  | (k', v') :: rest, k, v =>
    if h.same k' k then (k', v) :: rest else (k', v') :: setItem h rest k v

/-- The fields of `DictValidator`, `src/validators/dict.rs:18-25`; `asDict` stands for
`Input::validate_dict`, `keyLoc` for `Into<LocItem>` of a key. -/
structure DictV (α : Type) where
  strict : Bool
  key : Validator α α
  value : Validator α α
  minLength : Option Nat
  maxLength : Option Nat
  hashing : Hashing α
  keyLoc : α → LocItem
  asDict : Bool → α → ValResult α (List (ValResult α (α × α)))
  build : List (α × α) → α

/-- The loop of `ValidateToDict::consume_iterator`, `src/validators/dict.rs:114-155`. -/
def dictLoop (d : DictV α) (input : α) (saved : PartialMode) :
    List (Nat × Bool × ValResult α (α × α)) → List (α × α) → List (LineError α) → VState α →
    ValResult α α × VState α
  | [], out, errs, st =>
    if errs.isEmpty then
      match lengthCheck input "Dictionary" d.minLength d.maxLength out.length with
      | .error e => (.error e, st)
      | .ok () => (.ok (d.build out), st)
    else (.error (.lineErrors errs), st)
  | (_, isLast, itemResult) :: rest, out, errs, st =>
    let st := { st with allowPartial := .off }
    match itemResult with
    | .error e => (.error e, st)
    | .ok (key, value) =>
      let rk := d.key key st
      let withKey (outputKey : Option α) (errs : List (LineError α)) : ValResult α α × VState α :=
        let rv := d.value value (setPartial saved isLast rk.2)
        match rv.1 with
        | .ok w =>
          match outputKey with
          | none => dictLoop d input saved rest out errs rv.2
          | some k =>
            match d.hashing.hashErr k with
            | some (_, e) => (.error (.internal e), rv.2)
            | none => dictLoop d input saved rest (setItem d.hashing out k w) errs rv.2
        | .error (.lineErrors ls) =>
          dictLoop d input saved rest out
            (if isLast then errs else errs ++ ls.map (·.withOuterLocation (d.keyLoc key))) rv.2
        | .error .omitted => dictLoop d input saved rest out errs rv.2
        | .error e => (.error e, rv.2)
      match rk.1 with
      | .ok k => withKey (some k) errs
      | .error (.lineErrors ls) =>
        withKey none (errs ++ ls.map
          (fun e => (e.withOuterLocation (.s "[key]")).withOuterLocation (d.keyLoc key)))
      | .error .omitted => dictLoop d input saved rest out errs rk.2
      | .error e => (.error e, rk.2)

/-- `DictValidator::validate`, `src/validators/dict.rs:68-85`. -/
def DictV.validate (d : DictV α) : Validator α α := fun input st =>
  match d.asDict (st.strictOr d.strict) input with
  | .error e => (.error e, st)
  | .ok entries =>
    dictLoop d input st.allowPartial (enumerateLastPartial st.allowPartial 0 entries) [] [] st

/-! ### Tuples -/

/-- The `from_fn` iterator of `ValidateToTuple::consume_iterator`,
`src/validators/tuple.rs:344-368`, inside a `NextCountingIterator`, `tuple.rs:382-385`:
`rest` is what the source has not yielded, `index` the number of pulls, `err` the iteration
error met, `count` the counter of `NextCountingIterator`. -/
structure TIter (α : Type) where
  rest : List (Except PyErr α)
  index : Nat
  err : Option (Nat × PyErr)
  count : Nat

namespace TIter

/-- One call of the `from_fn` closure, `src/validators/tuple.rs:347-367`. -/
def pull (it : TIter α) : Option α × TIter α :=
  if it.err.isSome then (none, it)
  else match it.rest with
    | [] => (none, { it with index := it.index + 1 })
    | .ok a :: rest => (some a, { it with rest := rest, index := it.index + 1 })
    | .error e :: rest =>
      (none, { it with rest := rest, index := it.index + 1, err := some (it.index + 1, e) })

/-- `NextCountingIterator::next`, `src/validators/tuple.rs:400-404`. -/
def next (it : TIter α) : Option (Nat × α) × TIter α :=
  let r := it.pull
  (r.1.map (fun a => (it.count, a)), { r.2 with count := it.count + 1 })

/-- `collection_iter.inner.by_ref().take(n).collect()`, `src/validators/tuple.rs:166`. -/
def takeInner : Nat → TIter α → List α × TIter α
  | 0, it => ([], it)
  | n + 1, it =>
    match it.pull with
    | (none, it) => ([], it)
    | (some a, it) => let r := takeInner n it; (a :: r.1, r.2)

end TIter

/-- An item validator of a tuple: `validate` and `default_value` with an outer location
(`src/validators/mod.rs:853-860`). -/
structure TItem (α : Type) where
  validate : Validator α α
  default : Nat → VState α → ValResult α (Option α) × VState α

/-- `TupleValidator`, `src/validators/tuple.rs:16-24`; the schema's items before, at and after
`variadic_item_index` (`validators.split_at`, `tuple.rs:121-126`) are kept apart. -/
structure TupleV (α : Type) where
  strict : Bool
  head : List (TItem α)
  variadic : Option (TItem α × List (TItem α))
  minLength : Option Nat
  maxLength : Option Nat
  failFast : Bool
  asTuple : Bool → α → ValResult α (Seq α × Exactness)
  build : List α → α

/-- The mutable variables of `validate_tuple_variable`: output, errors, state. -/
structure TAcc (α : Type) where
  out : List α
  errs : List (LineError α)
  st : VState α

/-- Result of a tuple step: the accumulated variables, with `some e` if the step returned early
with the error `e`. -/
abbrev TRes (α : Type) := TAcc α × Option (ValError α)

/-- `push_output_item`, `src/validators/tuple.rs:244-266`. -/
def pushOutputItem (t : TupleV α) (input : α) (actualLength : Option Nat) (acc : TAcc α) (o : α) :
    TRes α :=
  let acc := { acc with out := acc.out ++ [o] }
  match t.maxLength.filter (· < acc.out.length) with
  | some m => (acc, some (.new (.tooLong "Tuple" m actualLength) input))
  | none => (acc, none)

/-- The `match validator.validate(..)` used for items that are present,
`src/validators/tuple.rs:80-87`, `148-155`, `179-190`. -/
def tupleItem (t : TupleV α) (input : α) (actualLength : Option Nat) (v : Validator α α)
    (index : Nat) (item : α) (acc : TAcc α) : TRes α :=
  let r := v item acc.st
  let acc := { acc with st := r.2 }
  match r.1 with
  | .ok o => pushOutputItem t input actualLength acc o
  | .error (.lineErrors ls) =>
    ({ acc with errs := acc.errs ++ ls.map (·.withOuterLocation (.i index)) }, none)
  | .error .omitted => (acc, none)
  | .error e => (acc, some e)

/-- `validate_tuple_items`, `src/validators/tuple.rs:65-103`. -/
def tupleItems (t : TupleV α) (input : α) (actualLength : Option Nat) :
    List (TItem α) → TIter α → TAcc α → TRes α × TIter α
  | [], it, acc => ((acc, none), it)
  | v :: vs, it, acc =>
    let n := it.next
    let r : TRes α :=
      match n.1 with
      | some (index, item) => tupleItem t input actualLength v.validate index item acc
      | none =>
        let index := n.2.count - 1
        let d := v.default index acc.st
        let acc := { acc with st := d.2 }
        match d.1 with
        | .error e => (acc, some e)
        | .ok (some value) => ({ acc with out := acc.out ++ [value] }, none)
        | .ok none =>
          ({ acc with errs := acc.errs ++ [.newWithLoc .missing input (.i index)] }, none)
    match r.2 with
    | some e => ((r.1, some e), n.2)
    | none =>
      if t.failFast && !r.1.errs.isEmpty then ((r.1, none), n.2)
      else tupleItems t input actualLength vs n.2 r.1

/-- The loop over the remaining items without tail validators, `src/validators/tuple.rs:147-160`;
the `Bool` says that the loop ended with `return Ok(output)`.  Recursion on the source. -/
def variadicLoop (t : TupleV α) (input : α) (actualLength : Option Nat) (v : Validator α α) :
    List (Except PyErr α) → TIter α → TAcc α → TRes α × Bool × TIter α
  | [], it, acc => ((acc, none), false, it.next.2)
  | .error _ :: _, it, acc => ((acc, none), false, it.next.2)
  | .ok a :: rest, it, acc =>
    let r := tupleItem t input actualLength v it.count a acc
    let it := { it with rest := rest, index := it.index + 1, count := it.count + 1 }
    match r.2 with
    | some e => ((r.1, some e), true, it)
    | none =>
      if t.failFast && !r.1.errs.isEmpty then ((r.1, none), true, it)
      else variadicLoop t input actualLength v rest it r.1

/-- The loop with a tail buffer, `src/validators/tuple.rs:172-195`: `index` is the saved index,
`buffer` the tail buffer (an empty one would panic at the `unwrap`, `tuple.rs:176`; the third
component of the result is then `none`).  Otherwise it is whether the loop ended with
`return`, the index, the buffer and the iterator. -/
def bufferLoop (t : TupleV α) (input : α) (actualLength : Option Nat) (v : Validator α α) :
    List (Except PyErr α) → TIter α → Nat → List α → TAcc α →
    TRes α × Option (Bool × Nat × List α × TIter α)
  | [], it, index, buffer, acc => ((acc, none), some (false, index, buffer, it.next.2))
  | .error _ :: _, it, index, buffer, acc => ((acc, none), some (false, index, buffer, it.next.2))
  | .ok a :: rest, it, _, buffer, acc =>
    let bufferItemIndex := it.count
    let it := { it with rest := rest, index := it.index + 1, count := it.count + 1 }
    match buffer with
    | [] => ((acc, none), none)
    | b :: buffer =>
      let buffer := buffer ++ [a]
      let r := tupleItem t input actualLength v bufferItemIndex b acc
      match r.2 with
      | some e => ((r.1, some e), some (true, bufferItemIndex, buffer, it))
      | none =>
        if t.failFast && !r.1.errs.isEmpty then
          ((r.1, none), some (true, bufferItemIndex, buffer, it))
        else bufferLoop t input actualLength v rest it bufferItemIndex buffer r.1

/-- `validate_tuple_variable`, `src/validators/tuple.rs:106-242`; `none` is the panic of
`tuple.rs:176`. -/
def tupleVariable (t : TupleV α) (input : α) (actualLength : Option Nat) (it : TIter α)
    (acc : TAcc α) : Option (TRes α × TIter α) :=
  match t.variadic with
  | some (v, tail) =>
    let h := tupleItems t input actualLength t.head it acc
    if h.1.2.isSome || (t.failFast && !h.1.1.errs.isEmpty) then some h
    else if tail.isEmpty then
      let source := if h.2.err.isSome then [] else h.2.rest
      let r := variadicLoop t input actualLength v.validate source h.2 h.1.1
      some (r.1, r.2.2)
    else
      let b := h.2.takeInner tail.length
      let source := if b.2.err.isSome then [] else b.2.rest
      let r := bufferLoop t input actualLength v.validate source b.2 b.2.count b.1 h.1.1
      match r.2 with
      | none => none
      | some (returned, index, buffer, it) =>
        if r.1.2.isSome || returned then some (r.1, it)
        else
          let tl := tupleItems t input actualLength tail
            ⟨buffer.map .ok, 0, none, index⟩ r.1.1
          some (tl.1, it)
  | none =>
    let h := tupleItems t input actualLength t.head it acc
    if h.1.2.isSome || (t.failFast && !h.1.1.errs.isEmpty) then some h
    else
      let n := h.2.next
      match n.1 with
      | some _ =>
        some ((h.1.1, some (.new (.tooLong "Tuple" t.head.length actualLength) input)), n.2)
      | none => some (h.1, n.2)

/-- The minimum length check of a tuple, `src/validators/tuple.rs:293-306`: the error pushed. -/
def tupleMinLengthError (t : TupleV α) (input : α) (n : Nat) : List (LineError α) :=
  match t.minLength.filter (n < ·) with
  | some m => [.new (.tooShort "Tuple" m n) input]
  | none => []

/-- `TupleValidator::validate`, `src/validators/tuple.rs:270-313`, with
`ValidateToTuple::consume_iterator`, `tuple.rs:335-379`; `none` is a panic. -/
def TupleV.validate (t : TupleV α) (input : α) (st : VState α) :
    Option (ValResult α α × VState α) :=
  let st := { st with allowPartial := .off }
  match t.asTuple (st.strictOr t.strict) input with
  | .error e => some (.error e, st)
  | .ok (seq, ex) =>
    let st := st.floorExactness ex
    match tupleVariable t input seq.len ⟨seq.items, 0, none, 0⟩ ⟨[], [], st⟩ with
    | none => none
    | some (r, it) =>
      match r.2, it.err with
      | some e, _ => some (.error e, r.1.st)
      | none, some (index, e) =>
        some (.error (.newWithLoc (.iterationError e.name) input (.i index)), r.1.st)
      | none, none =>
        let errs := r.1.errs ++ tupleMinLengthError t input r.1.out.length
        if errs.isEmpty then some (.ok (t.build r.1.out), r.1.st)
        else some (.error (.lineErrors errs), r.1.st)

end PC.Coll
