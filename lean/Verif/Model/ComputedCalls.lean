import Verif.Model.SerFields

/-
Model of the serialisation of computed fields whose properties have effects: `src/serializers/computed_fields.rs`.
-/

namespace PC.Computed
open PC.Filter (Key FVal kset)
open PC.SerFields (Env Opts SErr fieldFilter)

abbrev CField := PC.SerFields.Computed

/-- `getattr` on the model, for properties that read and write a state `σ`. -/
abbrev Attr (α ε σ : Type) := String → σ → Except ε α × σ

/-- What is left by a run: the result, the state, and the properties asked, in order. -/
structure Run (ρ ε σ : Type) where
  result : Except (SErr ε) ρ
  state : σ
  asked : List String

/-- A run with one more property asked before it. -/
def Run.after {ρ ε σ : Type} (ns : List String) (r : Run ρ ε σ) : Run ρ ε σ := { r with asked := ns ++ r.asked }

/-- `ComputedField::to_python` for each field, `src/serializers/computed_fields.rs:53-61, 147-175`. -/
def pythonLoop {α β ε σ : Type} (env : Env α β ε) (o : Opts) (incl excl : Option FVal) (attr : Attr α ε σ) :
    List (CField α β ε) → σ → List (Key × β) → Run (List (Key × β)) ε σ
  | [], s, out => ⟨.ok out, s, []⟩
  | c :: rest, s, out =>
    match fieldFilter env (.s c.name) incl excl with
    | .error e => ⟨.error e, s, []⟩
    | .ok none => pythonLoop env o incl excl attr rest s out
    | .ok (some (ni, ne)) =>
      match attr c.name s with
      | (.error e, s') => ⟨.error (.inner e), s', [c.name]⟩
      | (.ok v, s') =>
        match c.serializer.toPython v ni ne with
        | .error e => ⟨.error (.inner e), s', [c.name]⟩
        | .ok b =>
          if o.excludeNone && env.isNoneOut b then (pythonLoop env o incl excl attr rest s' out).after [c.name]
          else (pythonLoop env o incl excl attr rest s' (kset out (.s (c.key o)) b)).after [c.name]

/-- `ComputedFields::to_python`, `src/serializers/computed_fields.rs:42-62`. -/
def toPython {α β ε σ : Type} (env : Env α β ε) (o : Opts) (incl excl : Option FVal) (attr : Attr α ε σ)
    (cs : List (CField α β ε)) (s : σ) (out : List (Key × β)) : Run (List (Key × β)) ε σ :=
  if o.roundTrip then ⟨.ok out, s, []⟩ else pythonLoop env o incl excl attr cs s out

/-- The loop of `ComputedFields::serde_serialize`, `src/serializers/computed_fields.rs:79-107`, with the second
`getattr` in `ComputedFieldSerializer::serialize`, `src/serializers/computed_fields.rs:196-210`. -/
def jsonLoop {α β ε σ : Type} (env : Env α β ε) (o : Opts) (incl excl : Option FVal) (attr : Attr α ε σ) :
    List (CField α β ε) → σ → List (String × β) → Run (List (String × β)) ε σ
  | [], s, out => ⟨.ok out, s, []⟩
  | c :: rest, s, out =>
    match fieldFilter env (.s c.name) incl excl with
    | .error e => ⟨.error e, s, []⟩
    | .ok none => jsonLoop env o incl excl attr rest s out
    | .ok (some (ni, ne)) =>
      match attr c.name s with
      | (.error e, s') => ⟨.error (.inner e), s', [c.name]⟩
      | (.ok v, s') =>
        if o.excludeNone && env.isNone v then (jsonLoop env o incl excl attr rest s' out).after [c.name]
        else
          match attr c.name s' with
          | (.error e, s'') => ⟨.error (.inner e), s'', [c.name, c.name]⟩
          | (.ok v', s'') =>
            match c.serializer.serde v' ni ne with
            | .error e => ⟨.error (.inner e), s'', [c.name, c.name]⟩
            | .ok b => (jsonLoop env o incl excl attr rest s'' (out ++ [(c.key o, b)])).after [c.name, c.name]

/-- `ComputedFields::serde_serialize`, `src/serializers/computed_fields.rs:64-109`. -/
def toJson {α β ε σ : Type} (env : Env α β ε) (o : Opts) (incl excl : Option FVal) (attr : Attr α ε σ)
    (cs : List (CField α β ε)) (s : σ) (out : List (String × β)) : Run (List (String × β)) ε σ :=
  if o.roundTrip then ⟨.ok out, s, []⟩ else jsonLoop env o incl excl attr cs s out

end PC.Computed
