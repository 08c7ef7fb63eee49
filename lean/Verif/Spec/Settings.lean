import Verif.Model.Settings

/-
Where settings come from.
-/

namespace PC.Settings

/-- The schemas in a list. -/
inductive Member : Schema → Schemas → Prop
  | head {n s rest} : Member s (.cons n s rest)
  | tail {n s t rest} : Member s rest → Member s (.cons n t rest)

/-- The schema with the given kind, number and own entries lies in `s`; `around` are the kinds and `config` entries
of the schemas around it, outermost first, and of itself. A definition lies in what is around the definitions, not
in what refers to it. -/
inductive LiesIn : Schema → List (Kind × Option Dict) → Kind → Nat → Dict → Prop
  | here {k id own cfg kids} : LiesIn (.node k id own cfg kids) [(k, cfg)] k id own
  | kid {k id own cfg kids s around k' id' own'} : Member s kids → LiesIn s around k' id' own' →
      LiesIn (.node k id own cfg kids) ((k, cfg) :: around) k' id' own'
  | definition {ds inner s around k id own} : Member s ds → LiesIn s around k id own →
      LiesIn (.defs ds inner) around k id own
  | inner {ds inner around k id own} : LiesIn inner around k id own → LiesIn (.defs ds inner) around k id own

/-- The kinds of schemas that have a configuration of their own. -/
def owns : Side → Kind → Bool
  | _, .model => true
  | _, .dataclass => true
  | .validator, .typedDict => true
  | _, _ => false

/-- The configuration in force: that of the innermost schema that has its own, or the one given for the whole. -/
def inForce (side : Side) (top : Option Dict) (around : List (Kind × Option Dict)) : Option Dict :=
  match around.reverse.find? (fun x => owns side x.1) with
  | some x => x.2
  | none => top

/-- The entry that counts: that of the schema, or else that of the configuration. -/
def entry (own : Dict) (config : Option Dict) (sk ck : String) : Option Val :=
  (own sk).or (config.bind (· ck))

/-- There is no typed dict in a schema. -/
def NoTypedDict (s : Schema) : Prop := ∀ around k id own, LiesIn s around k id own → k ≠ .typedDict

/-- No entries. -/
def Dict.empty : Dict := fun _ => none

/-- One entry. -/
def Dict.only (k : String) (v : Val) : Dict := fun k' => if k' = k then some v else none

end PC.Settings
