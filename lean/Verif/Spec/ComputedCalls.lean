import Verif.Model.ComputedCalls

/-
What C111 says of the properties of computed fields.
-/

namespace PC.Computed
open PC.Filter (Key FVal kset)
open PC.SerFields (Env Opts SErr fieldFilter)

variable {α β ε σ : Type}

/-- The computed fields that `include` and `exclude` keep. -/
def included (env : Env α β ε) (incl excl : Option FVal) (cs : List (CField α β ε)) : List (CField α β ε) :=
  cs.filter fun c => match fieldFilter env (.s c.name) incl excl with
    | .ok (some _) => true
    | _ => false

/-- A run of JSON mode that succeeds, from one state to another: what is written, and what is asked. -/
inductive Writes (env : Env α β ε) (o : Opts) (incl excl : Option FVal) (attr : Attr α ε σ) :
    List (CField α β ε) → σ → σ → List (String × β) → List String → Prop where
  | done {s} : Writes env o incl excl attr [] s s [] []
  /-- An excluded field is not asked. -/
  | excluded {c cs s s' w a} : fieldFilter env (.s c.name) incl excl = .ok none →
      Writes env o incl excl attr cs s s' w a → Writes env o incl excl attr (c :: cs) s s' w a
  /-- `None` is left out, with `exclude_none`. -/
  | isNone {c cs s s1 s' w a n v} : fieldFilter env (.s c.name) incl excl = .ok (some n) →
      attr c.name s = (.ok v, s1) → o.excludeNone = true → env.isNone v = true →
      Writes env o incl excl attr cs s1 s' w a → Writes env o incl excl attr (c :: cs) s s' w (c.name :: a)
  /-- Else the property is asked again, and the second answer is written, whatever it is. -/
  | written {c cs s s1 s2 s' w a ni ne v v' b} : fieldFilter env (.s c.name) incl excl = .ok (some (ni, ne)) →
      attr c.name s = (.ok v, s1) → ¬ (o.excludeNone = true ∧ env.isNone v = true) →
      attr c.name s1 = (.ok v', s2) → c.serializer.serde v' ni ne = .ok b →
      Writes env o incl excl attr cs s2 s' w a →
      Writes env o incl excl attr (c :: cs) s s' ((c.key o, b) :: w) (c.name :: c.name :: a)

/-- The claim that each property is asked once: true in Python mode, false in JSON mode. -/
def AskedOnce (env : Env α β ε) (incl excl : Option FVal) (cs : List (CField α β ε)) (asked : List String) : Prop :=
  asked = (included env incl excl cs).map (·.name)

end PC.Computed
