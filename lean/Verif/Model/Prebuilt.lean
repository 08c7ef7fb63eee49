/-
Model of `src/common/prebuilt.rs` and `src/validators/prebuilt.rs`: the validator a class already has is used wherever its
schema occurs.
-/

namespace PC.Prebuilt

/-- A core schema, as far as building looks at it. `leaf` has no parts; `pair` stands for the schemas with several parts,
`list` for those with one; `generic` is whether a dataclass schema has a `generic_origin`. -/
inductive Sch where
  | leaf (k : Nat)
  | list (s : Sch)
  | pair (s t : Sch)
  | model (cls : Nat) (s : Sch)
  | dataclass (cls : Nat) (generic : Bool) (s : Sch)
  | before (f : Nat) (s : Sch)
  | after (f : Nat) (s : Sch)
  | wrap (f : Nat) (s : Sch)
  deriving DecidableEq, Repr

/-- `CombinedValidator`, with the variants for the above and `PrebuiltValidator`, `src/validators/prebuilt.rs:11-14`. -/
inductive Val where
  | leaf (k : Nat)
  | list (v : Val)
  | pair (v w : Val)
  | model (cls : Nat) (v : Val)
  | dataclass (cls : Nat) (v : Val)
  | before (f : Nat) (v : Val)
  | after (f : Nat) (v : Val)
  | wrap (f : Nat) (v : Val)
  | prebuilt (v : Val)
  deriving DecidableEq, Repr

/-- An attribute of a class: a `bool`, a `SchemaValidator`, or something else. -/
inductive Attr where
  | bool (b : Bool)
  | validator (v : Val)
  | other
  deriving DecidableEq, Repr

/-- What `get_prebuilt` looks up in the `__dict__` of a class (not in those of its parents):
`__pydantic_complete__` and `__pydantic_validator__`. -/
structure ClassDict where
  complete : Option Attr := none
  validator : Option Attr := none
  deriving DecidableEq, Repr

/-- The dicts of all classes. -/
abbrev Classes := Nat → ClassDict

/-- `get_prebuilt` once the class is known, with the extractor of `PrebuiltValidator::try_get_from_schema`,
`src/common/prebuilt.rs:34-49`, `src/validators/prebuilt.rs:18-27`. An error is that of a missing attribute or of one that is no
`SchemaValidator`. -/
def lookup (d : ClassDict) : Except Unit (Option Val) :=
  let isComplete := match d.complete with
    | some (.bool b) => b
    | _ => false
  if isComplete then
    match d.validator with
    | some (.validator v) =>
      match v with
      | .wrap _ _ => .ok none
      | .after _ _ => .ok none
      | v => .ok (some v)
    | _ => .error ()
  else .ok none

/-- `get_prebuilt`, `src/common/prebuilt.rs:7-50`: only models and dataclasses without `generic_origin` have one. -/
def getPrebuilt (T : Classes) : Sch → Except Unit (Option Val)
  | .model c _ => lookup (T c)
  | .dataclass c generic _ => if generic then .ok none else lookup (T c)
  | _ => .ok none

/-- `build_validator`, `src/validators/mod.rs:558-620`: an error of the lookup is ignored (569). Errors in the schema are left
out. -/
def build (T : Classes) : Sch → Val
  | .leaf k => .leaf k
  | .list s => .list (build T s)
  | .pair s t => .pair (build T s) (build T t)
  | .model c s =>
    match getPrebuilt T (.model c s) with
    | .ok (some v) => .prebuilt v
    | _ => .model c (build T s)
  | .dataclass c generic s =>
    match getPrebuilt T (.dataclass c generic s) with
    | .ok (some v) => .prebuilt v
    | _ => .dataclass c (build T s)
  | .before f s => .before f (build T s)
  | .after f s => .after f (build T s)
  | .wrap f s => .wrap f (build T s)

/-- What the validators do, whatever that is: one function per kind of schema. -/
structure Meaning (R : Type) where
  leaf : Nat → R
  list : R → R
  pair : R → R → R
  model : Nat → R → R
  dataclass : Nat → R → R
  before : Nat → R → R
  after : Nat → R → R
  wrap : Nat → R → R

/-- `Validator::validate`; `PrebuiltValidator::validate` calls that of the validator it holds,
`src/validators/prebuilt.rs:34-41`. -/
def Val.run {R : Type} (A : Meaning R) : Val → R
  | .leaf k => A.leaf k
  | .list v => A.list (v.run A)
  | .pair v w => A.pair (v.run A) (w.run A)
  | .model c v => A.model c (v.run A)
  | .dataclass c v => A.dataclass c (v.run A)
  | .before f v => A.before f (v.run A)
  | .after f v => A.after f (v.run A)
  | .wrap f v => A.wrap f (v.run A)
  | .prebuilt v => v.run A

/-- `cls.__pydantic_validator__ = SchemaValidator(schema)` and `cls.__pydantic_complete__ = True`. -/
def define (T : Classes) (c : Nat) (s : Sch) : Classes :=
  fun d => if d = c then ⟨some (.bool true), some (.validator (build T s))⟩ else T d

end PC.Prebuilt
