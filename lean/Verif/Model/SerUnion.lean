/-
Model of union serialisation: `src/serializers/type_serializers/union.rs`.
-/

namespace PC.SerUnion

/-- `SerCheck`: `src/serializers/extra.rs` 212-221. -/
inductive Check where
  | none
  | strict
  | lax
deriving DecidableEq, Repr

/-- A member serialiser applied to the value at hand (the `selector` of
`src/serializers/type_serializers/union.rs` 77 with a choice): under the given check and with the
warnings recorded so far it returns a value or raises, and may record warnings. `ε` stands for
exceptions and warnings, `β` for the serialised value.

`retry` is the member's `retry_with_lax_check` (`src/serializers/shared.rs` 309-312). -/
structure Member (ε β : Type) where
  run : Check → List ε → Except ε β × List ε
  retry : Bool

/-- A loop of `union_serialize` over the members with one check: the first success, or the errors of all
in order: `src/serializers/type_serializers/union.rs` 86-93 and 98-102 (where the errors are not
used). -/
def tryAll {ε β : Type} (c : Check) : List (Member ε β) → List ε → (Except (List ε) β) × List ε
  | [], w => (.error [], w)
  | m :: rest, w =>
    match m.run c w with
    | (.ok v, w') => (.ok v, w')
    | (.error e, w') =>
      match tryAll c rest w' with
      | (.ok v, w'') => (.ok v, w'')
      | (.error es, w'') => (.error (e :: es), w'')

/-- `retry_with_lax_check` of a union: `src/serializers/type_serializers/union.rs` 184-186, 289-291. -/
def retryAny {ε β : Type} (ms : List (Member ε β)) : Bool := ms.any (·.retry)

/-- `register_warning`, for each error in order: `src/serializers/type_serializers/union.rs` 106-119,
`src/serializers/extra.rs` 406-410. `warnOn` is `mode != WarningsMode::None`. Simplification: the
warning made from an error is identified with the error. -/
def registerAll {ε : Type} (warnOn : Bool) (es w : List ε) : List ε := if warnOn then w ++ es else w

/-- `union_serialize`: `src/serializers/type_serializers/union.rs` 73-128. `join` makes the error for the
parent union out of the errors of the members (123-124). -/
def unionSerialize {ε β : Type} (warnOn : Bool) (join : List ε → ε) (check : Check) (retry : Bool)
    (ms : List (Member ε β)) (w : List ε) : Except ε (Option β) × List ε :=
  match tryAll .strict ms w with
  | (.ok v, w1) => (.ok (some v), w1)
  | (.error errors, w1) =>
    let give (w2 : List ε) : Except ε (Option β) × List ε :=
      if check = .none then (.ok Option.none, registerAll warnOn errors w2)
      else if errors.isEmpty then (.ok Option.none, w2)
      else (.error (join errors), w2)
    if check ≠ .strict ∧ retry = true then
      match tryAll .lax ms w1 with
      | (.ok v, w2) => (.ok (some v), w2)
      | (.error _, w2) => give w2
    else give w1

/-- `to_python` of a union: `src/serializers/type_serializers/union.rs` 131-146. `infer` is
`infer_to_python` on the value. -/
def toPython {ε β : Type} (warnOn : Bool) (join : List ε → ε) (infer : List ε → Except ε β × List ε)
    (check : Check) (ms : List (Member ε β)) (w : List ε) : Except ε β × List ε :=
  match unionSerialize warnOn join check (retryAny ms) ms w with
  | (.error e, w') => (.error e, w')
  | (.ok (some v), w') => (.ok v, w')
  | (.ok Option.none, w') => infer w'

/-- `tagged_union_serialize`: `src/serializers/type_serializers/union.rs` 313-357. `tag` is the
discriminator value found, `lookup` the member index for a tag, `noTag` the warning registered when there
is no tag. A member index out of range is a panic in the code; it cannot happen as `lookup` is built
from the list of choices (213-217) and is modelled as no member found. -/
def taggedSerialize {ε β τ : Type} (warnOn : Bool) (join : List ε → ε) (noTag : ε) (check : Check)
    (tag : Option τ) (lookup : τ → Option Nat) (ms : List (Member ε β)) (w : List ε) :
    Except ε (Option β) × List ε :=
  match tag with
  | some t =>
    match (lookup t).bind (fun i => ms[i]?) with
    | some m =>
      match m.run .strict w with
      | (.ok v, w1) => (.ok (some v), w1)
      | (.error _, w1) =>
        if retryAny ms then
          match m.run .lax w1 with
          | (.ok v, w2) => (.ok (some v), w2)
          | (.error _, w2) => unionSerialize warnOn join check (retryAny ms) ms w2
        else unionSerialize warnOn join check (retryAny ms) ms w1
    | Option.none => unionSerialize warnOn join check (retryAny ms) ms w
  | Option.none =>
    unionSerialize warnOn join check (retryAny ms) ms
      (if check = .none then registerAll warnOn [noTag] w else w)

/-- How the type of a value relates to the type of a simple serialiser: `IsType` in
`src/serializers/ob_type.rs`. -/
inductive IsType where
  | exact
  | subclass
  | no
deriving DecidableEq, Repr

/-- `FloatSerializer` and the simple serialisers (`int`, `bool`) in a union, mode `python`:
`src/serializers/type_serializers/float.rs` 67-90, `simple.rs` 116-140 with `on_fallback_py`
(`src/serializers/extra.rs` 412-426). `val` is the value itself, `infer` its inferred form,
`unexpected` the error raised. Simplification: without check the warning is recorded whatever the
warnings mode (a union never calls a member without check). The float serialiser has the default
`retry_with_lax_check` (false), the int serialiser has true (`simple.rs` 171-173, 184). -/
def simpleMember {ε β : Type} (ty : IsType) (isNone retry : Bool) (val infer : β) (unexpected : ε) :
    Member ε β where
  run := fun c w =>
    match ty with
    | .exact => (.ok val, w)
    | .subclass => if c = .strict then (.error unexpected, w) else (.ok infer, w)
    | .no =>
      if isNone then (.ok infer, w)
      else if c = .none then (.ok infer, w ++ [unexpected])
      else (.error unexpected, w)
  retry := retry

end PC.SerUnion
