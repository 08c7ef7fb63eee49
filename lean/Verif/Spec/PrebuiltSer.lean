import Verif.Model.PrebuiltSer

/-
What a schema says about serialisation on its own, and programs that define classes and reuse them in a regular way.
-/

namespace PC.PrebuiltSer

/-- What the schema says, without any reuse. -/
def Sch.meaning {R : Type} (A : Meaning R) : Sch → R
  | .leaf k => A.leaf k
  | .list s => A.list (s.meaning A)
  | .pair s t => A.pair (s.meaning A) (t.meaning A)
  | .model c s => A.model c (s.meaning A)
  | .dataclass c _ s => A.dataclass c (s.meaning A)
  | .check s => s.meaning A
  | .plain f true ret _ => A.plain f (ret.meaning A)
  | .plain f false ret s => A.plainOr f (ret.meaning A) (s.meaning A)
  | .wrap f ret s => A.wrap f (ret.meaning A) (s.meaning A)

/-- A function that is not always used either is used, or serialisation is left to the fallback: with itself as fallback it
does the same. -/
def Meaning.Lawful {R : Type} (A : Meaning R) : Prop :=
  ∀ f ret r, A.plainOr f ret (A.plainOr f ret r) = A.plainOr f ret r

/-- The schema within validation functions. -/
def Sch.core : Sch → Sch
  | .check s => s.core
  | s => s

/-- The schema `m` of the class `c` occurs, directly in a `plain` schema with the function and the return schema in `around`
if these are given. It may be taken from the class if that is how the class is serialised; if the class is serialised by the
function around; or if by a `wrap` function, which is not reused. -/
def Regular (D : Nat → Sch) (around : Option (Nat × Sch)) (c : Nat) (m : Sch) : Prop :=
  (D c).core = m ∨ (∃ f ret, around = some (f, ret) ∧ (D c).core = .plain f false ret m)
    ∨ ∃ f ret u, (D c).core = .wrap f ret u

/-- `D` gives the schemas of the classes: all classes that occur in the schema do so regularly. -/
def Coherent (D : Nat → Sch) : Option (Nat × Sch) → Sch → Prop
  | _, .leaf _ => True
  | _, .list s => Coherent D none s
  | _, .pair s t => Coherent D none s ∧ Coherent D none t
  | a, .model c s => Regular D a c (.model c s) ∧ Coherent D none s
  | a, .dataclass c g s => (g = false → Regular D a c (.dataclass c false s)) ∧ Coherent D none s
  | _, .check s => Coherent D none s
  | _, .plain f always ret s => Coherent D none ret ∧ (always = false → Coherent D (some (f, ret)) s)
  | _, .wrap _ ret s => Coherent D none ret ∧ Coherent D none s

/-- The classes as they are after some of them were defined, one after another, with the schemas `D`: the others are
incomplete, whatever else they hold. A class may be defined again with the same schema. -/
inductive Program (D : Nat → Sch) : Classes → Prop
  | start {T : Classes} (h : ∀ c, (T c).complete ≠ some (.bool true)) : Program D T
  | define {T : Classes} {c : Nat} (h : Program D T) (hs : Coherent D none (D c)) : Program D (define T c (D c))

end PC.PrebuiltSer
