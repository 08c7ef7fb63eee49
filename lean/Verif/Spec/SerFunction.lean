import Verif.Model.SerFunction

/-
What function serialisers are documented to do, apart from how they do it.
-/

namespace PC.SerFunction
open PC.Filter (FVal)

variable {V J G ε : Type}

/-- The documented meaning of `when_used`. -/
def Applies (w : WhenUsed) (json none : Prop) : Prop :=
  match w with
  | .always => True
  | .unlessNone => ¬ none
  | .json => json
  | .jsonUnlessNone => json ∧ ¬ none

/-- The documented names of `when_used`. -/
def WhenUsed.text : WhenUsed → String
  | .always => "always"
  | .unlessNone => "unless-none"
  | .json => "json"
  | .jsonUnlessNone => "json-unless-none"

/-- The serialisation function is to be used for the value. -/
def Used (E : Env V J G ε) (w : WhenUsed) (x : Extra V) (v : V) : Prop :=
  Applies w (x.mode = .json) (E.isNone v = true)

/-- The info object says what the serialisation was asked for. -/
structure InfoFor (x : Extra V) (incl excl : Option FVal) (isField : Bool) (i : Info V) : Prop where
  incl : i.incl = incl
  excl : i.excl = excl
  context : i.context = x.context
  mode : i.mode = x.mode
  byAlias : i.byAlias = x.byAlias
  excludeUnset : i.excludeUnset = x.excludeUnset
  excludeDefaults : i.excludeDefaults = x.excludeDefaults
  excludeNone : i.excludeNone = x.excludeNone
  roundTrip : i.roundTrip = x.roundTrip
  serializeAsAny : i.serializeAsAny = x.serializeAsAny
  fieldName : i.fieldName = if isField then x.fieldName else Option.none

/-- The arguments a function should get: the model just if it is a field serialiser, the value, the info just if it is
asked for. -/
structure ArgsFor (f : Fn V ε) (x : Extra V) (v : V) (incl excl : Option FVal) (a : Args V) : Prop where
  value : a.value = v
  model : a.model = if f.isField then x.model else Option.none
  info_none : f.infoArg = false → a.info = Option.none
  info_some : f.infoArg = true → ∃ i, a.info = some i ∧ InfoFor x incl excl f.isField i

/-- There is a model for a field serialiser, and a field name for its info. -/
def HasContext (f : Fn V ε) (x : Extra V) : Prop :=
  f.isField = true → x.model.isSome ∧ (f.infoArg = true → x.fieldName.isSome)

/-- The message of the `PydanticSerializationError` that reports an exception of a function, for the exceptions that are
reported. -/
inductive Reported (E : Env V J G ε) (name : Text) : Exc ε → Text → Prop where
  | own (m : Text) : Reported E name (.serError m) m
  | recursion : Reported E name .recursion ("Error calling function `".toList ++ name ++ "`: RecursionError".toList)
  | omitted : Reported E name .omitted ("Error calling function `".toList ++ name ++ "`: ".toList ++ E.display .omitted)
  | runtime (m : Text) :
    Reported E name (.runtime m) ("Error calling function `".toList ++ name ++ "`: ".toList ++ E.display (.runtime m))
  | filter (e : Filter.Err) :
    Reported E name (.filter e) ("Error calling function `".toList ++ name ++ "`: ".toList ++ E.display (.filter e))
  | user (e : ε) :
    Reported E name (.user e) ("Error calling function `".toList ++ name ++ "`: ".toList ++ E.display (.user e))

/-- The exception says that the value was not of the expected type. -/
def IsUnexpected : Exc ε → Prop
  | .unexpected _ => True
  | _ => False

/-- The function `lambda value, handler: handler(value)`, whatever further arguments it takes. -/
def transparent (a : Args V) : Prog V ε :=
  .call a.value Option.none fun r =>
    match r with
    | .ok v => .ret v
    | .error e => .raise e

/-- Two steps agree: if the second succeeds so does the first, with a value that stands for it, and the same state. -/
def Stands {A B X Y : Type} (rel : A → B → Prop) (p : Res X A × St G) (q : Res Y B × St G) : Prop :=
  ∀ b st', q = (.ok b, st') → ∃ a, p = (.ok a, st') ∧ rel a b

/-- Whatever `to_json` writes, `to_python(mode='json')` gives a value that stands for it. -/
def JsonAgrees (rel : V → J → Prop) (s : Ser V J G ε) : Prop :=
  ∀ x v incl excl st, x.mode = .json → Stands rel (s.py x v incl excl st) (s.json x v incl excl st)

/-- A serialiser that does not panic. -/
structure NoPanic (s : Ser V J G ε) : Prop where
  py : ∀ x v incl excl st, (s.py x v incl excl st).1 ≠ .panic
  key : ∀ x v st, (s.key x v st).1 ≠ .panic
  json : ∀ x v incl excl st, (s.json x v incl excl st).1 ≠ .panic

end PC.SerFunction
