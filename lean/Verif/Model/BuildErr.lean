/-
Model of how building a validator fails: `build_validator` and `build_specific_validator` of `src/validators/mod.rs`.
-/

namespace PC.BuildErr

/-- A Python exception: its class and its text. -/
structure Exc where
  cls : String
  msg : String
  deriving DecidableEq, Repr

/-- `Display` of an exception, as the messages contain it, `src/validators/mod.rs:542`. -/
def Exc.show (e : Exc) : String := e.cls ++ ": " ++ e.msg

/-- `py_schema_error_type!`, `src/build_tools.rs:154-161`. -/
def schemaError (msg : String) : Exc := ⟨"SchemaError", msg⟩

/-- What the key `type` of a schema gives, `get_as_req`, `src/tools.rs:36-44`: nothing, what is not a text (with the
exception of extracting it), or a text. -/
inductive TypeKey where
  | missing
  | wrong (e : Exc)
  | is (type : String)
  deriving DecidableEq, Repr

mutual
/-- A schema as `build_validator` sees it, `src/validators/mod.rs:559-571`: not a dict (with the exception of the
downcast), or a dict with a type, whether the class it is for has a validator already (`src/common/prebuilt.rs`, only
asked for models and dataclasses), and what its `build` does. -/
inductive Sch where
  | notDict (e : Exc)
  | dict (type : TypeKey) (prebuilt : Bool) (steps : List Step)
/-- What `build` of a schema does, one after the other: a test of its own that may fail, or building a schema inside.
Fields and parameters name themselves in the error, `src/validators/model_fields.rs:85-88`,
`src/validators/typed_dict.rs:88-91`, `src/validators/dataclass.rs:80-83` and `src/validators/arguments.rs:109-112`. -/
inductive Step where
  | own (e : Option Exc)
  | child (label : Option String) (s : Sch)
end

/-- The error of a schema inside as it is passed on: unchanged, or named, `src/validators/model_fields.rs:87`. -/
def relabel : Option String → Exc → Exc
  | none, e => e
  | some l, e => schemaError (l ++ ":\n  " ++ e.show)

/-- `build_specific_validator`, `src/validators/mod.rs:535-543`. -/
def specific (type : String) (r : Except Exc Unit) : Except Exc Unit :=
  match r with
  | .ok () => .ok ()
  | .error e => .error (schemaError ("Error building \"" ++ type ++ "\" validator:\n  " ++ e.show))

mutual
/-- `build_validator`, `src/validators/mod.rs:546-571`, with the `validator_match!` macro; `known` are the types with a
validator. Whether there is a validator is modelled, not which. -/
def build (known : List String) : Sch → Except Exc Unit
  | .notDict e => .error e
  | .dict .missing _ _ => .error ⟨"KeyError", "'type'"⟩
  | .dict (.wrong e) _ _ => .error e
  | .dict (.is t) prebuilt steps =>
    if (t = "model" || t = "dataclass") && prebuilt then .ok ()
    else if known.contains t then specific t (buildSteps known steps)
    else if t = "invalid" then .error (schemaError "Cannot construct schema with `InvalidSchema` member.")
    else .error (schemaError ("Unknown schema type: \"" ++ t ++ "\""))
/-- `build` of a schema, with `?` after every step. -/
def buildSteps (known : List String) : List Step → Except Exc Unit
  | [] => .ok ()
  | .own none :: rest => buildSteps known rest
  | .own (some e) :: _ => .error e
  | .child l s :: rest =>
    match build known s with
    | .ok () => buildSteps known rest
    | .error e => .error (relabel l e)
end

end PC.BuildErr
