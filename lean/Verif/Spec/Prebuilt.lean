import Verif.Model.Prebuilt

/-
What a schema means on its own, and programs that define classes and reuse them in a regular way.
-/

namespace PC.Prebuilt

/-- What the schema says, without any reuse. -/
def Sch.meaning {R : Type} (A : Meaning R) : Sch → R
  | .leaf k => A.leaf k
  | .list s => A.list (s.meaning A)
  | .pair s t => A.pair (s.meaning A) (t.meaning A)
  | .model c s => A.model c (s.meaning A)
  | .dataclass c _ s => A.dataclass c (s.meaning A)
  | .before f s => A.before f (s.meaning A)
  | .after f s => A.after f (s.meaning A)
  | .wrap f s => A.wrap f (s.meaning A)

/-- `m` occurs in the schema. -/
inductive Occurs (m : Sch) : Sch → Prop
  | here : Occurs m m
  | list {s : Sch} (h : Occurs m s) : Occurs m (.list s)
  | left {s t : Sch} (h : Occurs m s) : Occurs m (.pair s t)
  | right {s t : Sch} (h : Occurs m t) : Occurs m (.pair s t)
  | model {c : Nat} {s : Sch} (h : Occurs m s) : Occurs m (.model c s)
  | dataclass {c : Nat} {g : Bool} {s : Sch} (h : Occurs m s) : Occurs m (.dataclass c g s)
  | before {f : Nat} {s : Sch} (h : Occurs m s) : Occurs m (.before f s)
  | after {f : Nat} {s : Sch} (h : Occurs m s) : Occurs m (.after f s)
  | wrap {f : Nat} {s : Sch} (h : Occurs m s) : Occurs m (.wrap f s)

/-- `D` gives the schemas of the classes. Where the schema of a model or dataclass occurs in `s`, it is that of its class;
or the schema of the class is more, with an `after` or a `wrap` function as its outermost part. -/
def Coherent (D : Nat → Sch) (s : Sch) : Prop :=
  (∀ c t, Occurs (.model c t) s → D c = .model c t ∨ (∃ f u, D c = .after f u) ∨ ∃ f u, D c = .wrap f u)
  ∧ ∀ c t, Occurs (.dataclass c false t) s →
      D c = .dataclass c false t ∨ (∃ f u, D c = .after f u) ∨ ∃ f u, D c = .wrap f u

/-- The classes as they are after some of them were defined, one after another, with the schemas `D`: the others are
incomplete, whatever else they hold. A class may be defined again with the same schema. -/
inductive Program (D : Nat → Sch) : Classes → Prop
  | start {T : Classes} (h : ∀ c, (T c).complete ≠ some (.bool true)) : Program D T
  | define {T : Classes} {c : Nat} (h : Program D T) (hs : Coherent D (D c)) : Program D (define T c (D c))

end PC.Prebuilt
