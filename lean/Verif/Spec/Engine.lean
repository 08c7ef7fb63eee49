import Verif.Model.Engine

/-
Vocabulary for statements about nested schemas: which values are inside an input, which references a schema follows
before it goes inside, and which schemas leave the input alone.
-/

namespace PC.Engine
open PC.Comb PC.Coll PC.Union PC.Fields PC.Lookup
variable {α : Type}

/-- `x` is directly inside `a`: an item, a key, a value. -/
inductive Inside (W : World α) (a : α) : α → Prop where
  | list {strict seq ex x} : W.asList strict a = .ok (seq, ex) → (.ok x) ∈ seq.items → Inside W a x
  | set {strict seq ex x} : W.asSet strict a = .ok (seq, ex) → (.ok x) ∈ seq.items → Inside W a x
  | tuple {strict seq ex x} : W.asTuple strict a = .ok (seq, ex) → (.ok x) ∈ seq.items → Inside W a x
  | dictKey {strict entries x y} : W.asDict strict a = .ok entries → (.ok (x, y)) ∈ entries → Inside W a x
  | dictValue {strict entries x y} : W.asDict strict a = .ok entries → (.ok (x, y)) ∈ entries → Inside W a y
  | field {strict view key path x} : W.view strict a = .ok view → view.get key = .ok (some (path, x)) → Inside W a x
  | extra {strict view entries x y} : W.view strict a = .ok view → view.entries = .ok entries →
      (.ok (x, y)) ∈ entries → Inside W a y
  /-- a field of a model, read from a dict or from attributes -/
  | modelField {strict fromAttributes view key path x} : W.asFields strict fromAttributes a = .ok view →
      view.get key = .ok (some (path, x)) → Inside W a x
  /-- the dict of the attributes of an instance -/
  | attributes {cls i} : (W.source cls a).inst? = some i → Inside W a (W.mkTyped (Cls.attributes i))
  | root {cls i x} : (W.source cls a).inst? = some i → i.dict.get "root" = some x → Inside W a x

mutual
/-- No function of the schema sees the input before it is validated: no function-before, no function-wrap. -/
def Schema.keepsInput : Schema α → Prop
  | .leaf _ => True
  | .nullable s => s.keepsInput
  | .list _ _ _ _ item => item.keepsInput
  | .set _ _ _ _ _ item => item.keepsInput
  | .dict _ _ _ key value => key.keepsInput ∧ value.keepsInput
  | .tuple _ _ _ _ head => head.keepsInput
  | .tupleVar _ _ _ _ head variadic tail => head.keepsInput ∧ variadic.keepsInput ∧ tail.keepsInput
  | .typedDict _ fields => fields.keepsInput
  | .typedDictExtras _ fields extras => fields.keepsInput ∧ extras.keepsInput
  | .union _ _ members => members.keepsInput
  | .tagged _ choices => choices.keepsInput
  | .model _ fields => fields.keepsInput
  | .rootModel _ _ root => root.keepsInput
  | .before _ _ => False
  | .after _ s => s.keepsInput
  | .wrap _ _ => False
  | .customError _ s => s.keepsInput
  | .laxOrStrict _ lax strictS => lax.keepsInput ∧ strictS.keepsInput
  | .ref _ => True
/-- All of them keep the input. -/
def Schemas.keepsInput : Schemas α → Prop
  | .nil => True
  | .cons s rest => s.keepsInput ∧ rest.keepsInput
/-- All of them keep the input. -/
def Members.keepsInput : Members α → Prop
  | .nil => True
  | .cons _ _ s rest => s.keepsInput ∧ rest.keepsInput
/-- All of them keep the input. -/
def FieldSchemas.keepsInput : FieldSchemas α → Prop
  | .nil => True
  | .cons _ _ _ _ s rest => s.keepsInput ∧ rest.keepsInput
end

mutual
/-- The definitions a schema refers to for the input it is given itself, not for something inside it. -/
def Schema.direct : Schema α → List Nat
  | .leaf _ => []
  | .nullable s => s.direct
  | .list _ _ _ _ _ => []
  | .set _ _ _ _ _ _ => []
  | .dict _ _ _ _ _ => []
  | .tuple _ _ _ _ _ => []
  | .tupleVar _ _ _ _ _ _ _ => []
  | .typedDict _ _ => []
  | .typedDictExtras _ _ _ => []
  | .union _ _ members => members.direct
  | .tagged _ choices => choices.direct
  | .model _ _ => []
  | .rootModel _ _ root => root.direct
  | .before _ s => s.direct
  | .after _ s => s.direct
  | .wrap _ s => s.direct
  | .customError _ s => s.direct
  | .laxOrStrict _ lax strictS => lax.direct ++ strictS.direct
  | .ref name => [name]
/-- Those of all choices. -/
def Schemas.direct : Schemas α → List Nat
  | .nil => []
  | .cons s rest => s.direct ++ rest.direct
/-- Those of all members. -/
def Members.direct : Members α → List Nat
  | .nil => []
  | .cons _ _ s rest => s.direct ++ rest.direct
end

/-- The run of the program for schema `s` on input `a` ends with `r`, without a panic, and never holds more than `N`
definition references inside each other: with at least that much fuel the result is `r` whatever stands for "goes on"
and for "panics". -/
def EndsWith (E : Env α) (N : Nat) (s : Schema α) (a : α) (st : VState α) (r : ValResult α α × VState α) : Prop :=
  ∀ (n : Nat) (f : Nat → Validator α α) (p : ValResult α α), N ≤ n →
    run { E with outOfFuel := f, panic := p } n s a st = r

end PC.Engine
