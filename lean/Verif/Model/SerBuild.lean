import Verif.Model.SerSchema

/-
Which serialiser is built for schemas that only matter for validation: `src/serializers/type_serializers/other.rs` and
`with_default.rs`.
-/

namespace PC.Infer

variable {α : Type}

/-- The schema as given. `base` stands for the schemas that have a serialiser of their own. -/
inductive Src (α : Type) where
  | base (s : Schema α)
  | chain (steps : List (Src α))
  | customError (s : Src α)
  | call (ret : Option (Src α))
  | laxOrStrict (lax strict : Src α)
  | arguments
  | isInstance
  | isSubclass
  | callable
  | withDefault (s : Src α)

/-- The outcome of building a serialiser. -/
inductive Built (α : Type) where
  | ok (s : Schema α)
  | schemaError
  | panic

mutual
/-- `CombinedSerializer::build` for these schemas, `src/serializers/type_serializers/other.rs:14-113`,
`with_default.rs:22-34`: `.last().unwrap()` (25-26) of no steps is a panic. Simplification: a serialiser with a default
passes everything on (`with_default.rs:40-72`), and is left out; its default is only asked for with `exclude_defaults`. -/
def Src.lower : Src α → Built α
  | .base s => .ok s
  | .chain steps => Src.lowerLast steps
  | .customError s => s.lower
  | .call Option.none => .ok .any
  | .call (some s) => s.lower
  | .laxOrStrict _ strict => strict.lower
  | .arguments => .schemaError
  | .isInstance => .ok .any
  | .isSubclass => .ok .any
  | .callable => .ok .any
  | .withDefault s => s.lower
/-- The last step of a chain. -/
def Src.lowerLast : List (Src α) → Built α
  | [] => .panic
  | [s] => s.lower
  | _ :: s :: ss => Src.lowerLast (s :: ss)
end

end PC.Infer
