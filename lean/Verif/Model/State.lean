import Verif.Model.Core
import Verif.Model.RecursionGuard

/-
Model of `src/validators/validation_state.rs`.
-/

namespace PC

/-- `ValidationState`, `src/validators/validation_state.rs:18-30`. -/
structure VState (α : Type) where
  guard : Guard.State
  exactness : Option Exactness
  fieldsSetCount : Option Nat
  allowPartial : PartialMode
  extra : Extra α
  deriving DecidableEq, Repr

namespace VState
variable {α : Type}

/-- `ValidationState::new`, `src/validators/validation_state.rs:33-41`. -/
def new (extra : Extra α) (guard : Guard.State) (allowPartial : PartialMode) : VState α :=
  ⟨guard, none, none, allowPartial, extra⟩

/-- `strict_or`, `src/validators/validation_state.rs:63-65`. -/
def strictOr (st : VState α) (d : Bool) : Bool := st.extra.strict.getD d

/-- `validate_by_alias_or`, `src/validators/validation_state.rs:67-69`. -/
def validateByAliasOr (st : VState α) (d : Option Bool) : Bool :=
  (st.extra.byAlias.or d).getD true

/-- `validate_by_name_or`, `src/validators/validation_state.rs:71-73`. -/
def validateByNameOr (st : VState α) (d : Option Bool) : Bool :=
  (st.extra.byName.or d).getD false

/-- `floor_exactness`, `src/validators/validation_state.rs:80-90`. -/
def floorExactness (st : VState α) (e : Exactness) : VState α :=
  match st.exactness with
  | none => st
  | some .lax => st
  | some .strict => if e = .lax then { st with exactness := some .lax } else st
  | some .exact => { st with exactness := some e }

/-- `add_fields_set`, `src/validators/validation_state.rs:92-94` (`usize` overflow ignored). -/
def addFieldsSet (st : VState α) (n : Nat) : VState α :=
  { st with fieldsSetCount := some (st.fieldsSetCount.getD 0 + n) }

end VState

/-- A validator: `Validator::validate`, `src/validators/mod.rs` (trait `Validator`).  The Rust
`&mut ValidationState` becomes a state that is passed in and returned, also on error. -/
abbrev Validator (α β : Type) := α → VState α → ValResult α β × VState α

/-- `rebind_extra` together with the `Drop` of `ValidationStateWithReboundExtra`,
`src/validators/validation_state.rs:46-53,130-134`: run `body` with a modified `extra`, then
restore the old one whatever the outcome. -/
def rebindExtra {α β : Type} (f : Extra α → Extra α) (body : VState α → β × VState α)
    (st : VState α) : β × VState α :=
  let old := st.extra
  let r := body { st with extra := f st.extra }
  (r.1, { r.2 with extra := old })

/-- `EnumerateLastPartial`, `src/validators/validation_state.rs:137-168`, run to completion:
each item with its index and whether it is the last one of a partial input.  The look-ahead
iterator becomes a recursion on the list. -/
def enumerateLastPartial {ι : Type} (mode : PartialMode) : Nat → List ι → List (Nat × Bool × ι)
  | _, [] => []
  | i, a :: rest => (i, mode.isActive && rest.isEmpty, a) :: enumerateLastPartial mode (i + 1) rest

end PC
