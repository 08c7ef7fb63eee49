import Verif.Model.Combinators
import Verif.Model.Dataclass

/-
What the functions of function validators are told: `ValidationInfo`, `src/validators/function.rs`.
-/

namespace PC.Info
open PC.Comb
variable {α : Type}

/-- `ValidationInfo`, `src/validators/function.rs:526-533`.  Left out: `config`, which is that of the schema, and `context`
and `mode`, which are the same during a whole run. -/
structure Info (α : Type) where
  data : Option (List (String × α))
  fieldName : Option String
  deriving DecidableEq

/-- `ValidationInfo::new`, `src/validators/function.rs:536-544`, with the field name chosen as in 103-108: that of the state,
or else that of the schema. -/
def Info.new (extra : Extra α) (schemaName : Option String) : Info α :=
  ⟨extra.data, extra.fieldName.or schemaName⟩

/-- The function of a schema, `destructure_function_schema`, `src/validators/function.rs:26-58`: one that takes `info` or one
that does not. -/
inductive Func (α β : Type) where
  | noInfo (f : α → β)
  | withInfo (f : α → Info α → β)

/-- The call of the function, `src/validators/function.rs:102-113` (before), 176-187 (after), 272-283 (plain) and 342-353
(wrap). -/
def Func.call {β : Type} (f : Func α β) (schemaName : Option String) (extra : Extra α) (x : α) : β :=
  match f with
  | .noInfo f => f x
  | .withInfo f => f x (Info.new extra schemaName)

/-- A function schema of each kind over the validators of `Combinators`. -/
inductive Kind (α : Type) where
  | before (f : Func α (Except (PyExc α) α)) (inner : Validator α α)
  | after (f : Func α (Except (PyExc α) α)) (inner : Validator α α)
  | plain (f : Func α (Except (PyExc α) α))
  | wrap (f : Func α (WrapProg α)) (inner : Validator α α)

/-- The four validators, `src/validators/function.rs:92-117, 166-191, 266-285, 335-385`. -/
def Kind.validate (k : Kind α) (schemaName : Option String) : Validator α α :=
  match k with
  | .before f inner => functionBefore (f.call schemaName) inner
  | .after f inner => functionAfter (f.call schemaName) inner
  | .plain f => functionPlain (f.call schemaName)
  | .wrap f inner => functionWrap (f.call schemaName) inner

end PC.Info
