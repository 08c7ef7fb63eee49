import Verif.Model.Combinators

/-
Models of `src/validators/call.rs`, `is_instance.rs`, `is_subclass.rs` and `callable.rs`.
-/

namespace PC.CallClass
variable {α : Type}

/-- What the validators ask of Python. `asPair` is `extract::<(Bound<PyTuple>, Bound<PyDict>)>()`: the two parts of a
tuple of two whose first is a tuple and whose second a dict; `asDict` is `downcast::<PyDict>()`; `call` calls the function
of the schema; `asPython` is `Input::as_python` (nothing for JSON and strings); `isInstance` and `isSubclass` are about
the class of the schema, `isSubclass` is nothing for an object that is not a class; each may raise. -/
structure Env (α : Type) where
  asPair : α → Option (List α × List (String × α))
  asDict : α → Option (List (String × α))
  call : List α → List (String × α) → Except PyErr α
  asPython : α → Option α
  isInstance : α → Except PyErr Bool
  isSubclass : α → Option (Except PyErr Bool)
  isCallable : α → Bool

/-- The calls of the function of a schema: positional and keyword arguments. -/
abbrev Calls (α : Type) := List (List α × List (String × α))

/-- The validation of what the function returned, `src/validators/call.rs:95-101`. -/
def returned (ret : Option (Validator α α)) (v : α) (st : VState α) : ValResult α α × VState α :=
  match ret with
  | some rv =>
    match rv v st with
    | (.ok w, st1) => (.ok w, st1)
    | (.error e, st1) => (.error (e.withOuterLocation (.s "return")), st1)
  | none => (.ok v, st)

/-- A call of the function and what follows, `src/validators/call.rs:87, 89, 95-101`; the exception of the function
becomes an internal error (`?` on a `PyErr`, `src/errors/line_error.rs:42-46`). -/
def callWith (E : Env α) (ret : Option (Validator α α)) (args : List α) (kwargs : List (String × α)) (st : VState α) :
    (ValResult α α × VState α) × Calls α :=
  (match E.call args kwargs with
    | .error e => (.error (.internal e), st)
    | .ok v => returned ret v st, [(args, kwargs)])

/-- `CallValidator::validate`, `src/validators/call.rs:78-102`, with the calls made. -/
def callValidate (E : Env α) (argsV : Validator α α) (ret : Option (Validator α α)) (input : α) (st : VState α) :
    (ValResult α α × VState α) × Calls α :=
  match argsV input st with
  | (.error e, st1) => ((.error e, st1), [])
  | (.ok o, st1) =>
    match E.asPair o with
    | some (args, kwargs) => callWith E ret args kwargs st1
    | none =>
      match E.asDict o with
      | some kwargs => callWith E ret [] kwargs st1
      | none => ((.error (.internal ⟨"TypeError"⟩), st1), [])

/-- `IsInstanceValidator::validate`, `src/validators/is_instance.rs:51-76`. -/
def isInstanceValidate (E : Env α) : Validator α α := fun input st =>
  match E.asPython input with
  | none => (.error (.new (.other "needs_python_object") input), st)
  | some obj =>
    match E.isInstance obj with
    | .error e => (.error (.internal e), st)
    | .ok true => (.ok obj, st)
    | .ok false => (.error (.new (.other "is_instance_of") input), st)

/-- `IsSubclassValidator::validate`, `src/validators/is_subclass.rs:46-71`. -/
def isSubclassValidate (E : Env α) : Validator α α := fun input st =>
  match E.asPython input with
  | none => (.error (.new (.other "needs_python_object") input), st)
  | some obj =>
    match E.isSubclass obj with
    | some (.error e) => (.error (.internal e), st)
    | some (.ok true) => (.ok obj, st)
    | _ => (.error (.new (.other "is_subclass_of") input), st)

/-- `CallableValidator::validate`, `src/validators/callable.rs:28-41`. -/
def callableValidate (E : Env α) : Validator α α := fun input st =>
  let st := st.floorExactness .lax
  match E.asPython input with
  | some obj => if E.isCallable obj then (.ok obj, st) else (.error (.new (.other "callable_type") input), st)
  | none => (.error (.new (.other "callable_type") input), st)

end PC.CallClass
