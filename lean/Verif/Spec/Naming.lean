import Verif.Model.Naming

/-
The names of validators in recursive schemas.
-/

namespace PC.Naming

/-- `s` is the name of `v`, written out. -/
inductive FullName (body : Nat → Named) : Named → String → Prop
  | const {s} : FullName body (.const s) s
  | list {l v s} : FullName body v s → FullName body (.list l v) ("list[" ++ s ++ "]")
  | ref {d s} : FullName body (body d) s → FullName body (.ref d) s

/-- `s` is the name of `v`, with dots in place of the names of some references. -/
inductive ShortName (body : Nat → Named) : Named → String → Prop
  | const {s} : ShortName body (.const s) s
  | list {l v s} : ShortName body v s → ShortName body (.list l v) ("list[" ++ s ++ "]")
  | ref {d s} : ShortName body (body d) s → ShortName body (.ref d) s
  | dots {d} : ShortName body (.ref d) "..."

/-- The definition `d` is referred to in `v`. -/
def Named.Mentions : Named → Nat → Prop
  | .const _, _ => False
  | .list _ v, d => v.Mentions d
  | .ref e, d => d = e

/-- `v` contains the list `l` with items `item`. -/
def Named.HasList : Named → Nat → Named → Prop
  | .const _, _, _ => False
  | .list k v, l, item => (k = l ∧ v = item) ∨ v.HasList l item
  | .ref _, _, _ => False

/-- Each list of the schema has its own number: the lists with the number `l` in the definitions and in the
validators `vs` have the items `items l`. -/
def Numbered (body items : Nat → Named) (vs : List Named) : Prop :=
  (∀ d l it, (body d).HasList l it → it = items l) ∧ ∀ v ∈ vs, ∀ l it, v.HasList l it → it = items l

/-- The schema has the definitions `0, ..., m - 1`. -/
def Within (body : Nat → Named) (m : Nat) : Prop := ∀ d e, d < m → (body d).Mentions e → e < m

/-- The definitions are not recursive. -/
def NotRecursive (body : Nat → Named) : Prop :=
  ∃ rank : Nat → Nat, ∀ d e, (body d).Mentions e → rank e < rank d

end PC.Naming
