import Verif.Model.CallClass

/-
Which validated arguments can be passed on to a function, and how.
-/

namespace PC.CallClass
variable {α : Type}

/-- The validated arguments `o` stand for the call `f(*args, **kwargs)`: a tuple of the two, or the keyword arguments
alone. -/
inductive Binds (E : Env α) (o : α) : List α → List (String × α) → Prop
  | pair {args : List α} {kwargs : List (String × α)} (h : E.asPair o = some (args, kwargs)) : Binds E o args kwargs
  | dict {kwargs : List (String × α)} (hp : E.asPair o = none) (h : E.asDict o = some kwargs) : Binds E o [] kwargs

end PC.CallClass
