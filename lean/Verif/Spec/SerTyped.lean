import Verif.Model.SerBuild

/-
Which values are of the type a scalar schema describes, which values a literal expects, and which schemas have an empty
chain where it counts.
-/

namespace PC.Infer

variable {α : Type}

/-- `a` is not of the type of the schema, which has this name. For a `Literal` nothing is said. -/
inductive IsNot (E : Env α) : Leaf → Text → α → Prop
  | none {a : α} (h : E.world.shape a ≠ .none) : IsNot E .none "none".toList a
  | bool {a : α} (h : E.isType .bool a = .no) (hc : E.extractBool a = Option.none) : IsNot E .bool "bool".toList a
  | int {a : α} (h : E.isType .int a = .no) (hc : E.extractInt a = Option.none) : IsNot E .int "int".toList a
  | float {a : α} {m : InfNanMode} (h : E.isType .float a = .no) (hc : E.extractFloat a = Option.none) :
    IsNot E (.float m) "float".toList a
  | str {a : α} (h : E.isType .str a = .no) (hc : E.asStr a = Option.none) : IsNot E .str "str".toList a
  | bytes {a : α} {m : Bytes.Mode} (h : E.asBytes a = Option.none) : IsNot E (.bytes m) "bytes".toList a
  | datetime {a : α} (h : E.asText .datetime a = Option.none) : IsNot E (.text .datetime) "datetime".toList a
  | date {a : α} (h : E.asText .date a = Option.none) : IsNot E (.text .date) "date".toList a
  | time {a : α} (h : E.asText .time a = Option.none) : IsNot E (.text .time) "time".toList a
  | url {a : α} (h : E.asText .url a = Option.none) : IsNot E (.text .url) "url".toList a
  | multiHostUrl {a : α} (h : E.asText .multiHostUrl a = Option.none) :
    IsNot E (.text .multiHostUrl) "multi-host-url".toList a
  | timedelta {a : α} {m : TimedeltaMode} (h : E.asTimedelta a = Option.none) :
    IsNot E (.timedelta m) "timedelta".toList a
  | decimal {a : α} (h : E.isDecimal a = false) : IsNot E .decimal "decimal".toList a
  | enum {a : α} {cls : Nat} (h : E.isEnum cls a = false) : IsNot E (.enum cls) "enum".toList a
  | enumOf {a : α} {cls : Nat} {sub : Leaf} (h : E.isEnum cls a = false) : IsNot E (.enumOf cls sub) "enum".toList a

/-- One more warning. -/
def St.warned (st : St) (name : Text) : St := { st with warnings := st.warnings ++ [name] }

/-- `a` is one of the values of a literal: an expected integer, and not a `bool`; an expected string; or equal to one of
the other values. -/
def Expected (E : Env α) (l : LiteralInfo) (a : α) : Prop :=
  (∃ i, E.extractI64 a = some i ∧ i ∈ l.ints ∧ E.isType .bool a = .no)
    ∨ (∃ t, E.asStr a = some (.utf8 t) ∧ t ∈ l.strs)
    ∨ ∃ n, l.others = some n ∧ E.among n a = .ok true

/-- A chain without steps is met when the serialiser is built. -/
inductive EmptyChain : Src α → Prop
  | here : EmptyChain (.chain [])
  | last {ss : List (Src α)} {s : Src α} (h : EmptyChain s) : EmptyChain (.chain (ss ++ [s]))
  | customError {s : Src α} (h : EmptyChain s) : EmptyChain (.customError s)
  | call {s : Src α} (h : EmptyChain s) : EmptyChain (.call (some s))
  | strict {lax s : Src α} (h : EmptyChain s) : EmptyChain (.laxOrStrict lax s)
  | default {s : Src α} (h : EmptyChain s) : EmptyChain (.withDefault s)

end PC.Infer
