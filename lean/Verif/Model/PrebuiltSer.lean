/-
Model of `src/common/prebuilt.rs` and `src/serializers/prebuilt.rs`: the serialiser a class already has is used wherever its
schema occurs.
-/

namespace PC.PrebuiltSer

/-- A core schema, as far as building a serialiser looks at it. `leaf` has no parts, `pair` stands for those with several and
`list` for those with one; `generic` is whether a dataclass schema has a `generic_origin`; `check` is a validation function
around a schema. `plain` and `wrap` are a schema `s` with a `serialization` of that kind (`wrap` may also have been given
`s` as `schema` there, `src/serializers/type_serializers/function.rs:357-362`): `f` identifies the function with
the options given with it, `always` is whether `when_used` is `'always'`, `ret` the schema of what the function returns. -/
inductive Sch where
  | leaf (k : Nat)
  | list (s : Sch)
  | pair (s t : Sch)
  | model (cls : Nat) (s : Sch)
  | dataclass (cls : Nat) (generic : Bool) (s : Sch)
  | check (s : Sch)
  | plain (f : Nat) (always : Bool) (ret s : Sch)
  | wrap (f : Nat) (ret s : Sch)
  deriving DecidableEq, Repr

/-- `CombinedSerializer`, with the variants for the above and `PrebuiltSerializer`, `src/serializers/prebuilt.rs:12-15`.
`plain` has a fallback unless it is always used, `src/serializers/type_serializers/function.rs:75-86`. -/
inductive Ser where
  | leaf (k : Nat)
  | list (v : Ser)
  | pair (v w : Ser)
  | model (cls : Nat) (v : Ser)
  | dataclass (cls : Nat) (v : Ser)
  | plain (f : Nat) (ret : Ser)
  | plainOr (f : Nat) (ret fallback : Ser)
  | wrap (f : Nat) (ret inner : Ser)
  | prebuilt (v : Ser)
  deriving DecidableEq, Repr

/-- An attribute of a class: a `bool`, a `SchemaSerializer`, or something else. -/
inductive Attr where
  | bool (b : Bool)
  | serializer (v : Ser)
  | other
  deriving DecidableEq, Repr

/-- What `get_prebuilt` looks up in the `__dict__` of a class (not in those of its parents):
`__pydantic_complete__` and `__pydantic_serializer__`. -/
structure ClassDict where
  complete : Option Attr := none
  serializer : Option Attr := none
  deriving DecidableEq, Repr

/-- The dicts of all classes. -/
abbrev Classes := Nat → ClassDict

/-- `get_prebuilt` once the class is known, with the extractor of `PrebuiltSerializer::try_get_from_schema`,
`src/common/prebuilt.rs:34-49`, `src/serializers/prebuilt.rs:18-26`. An error is that of a missing attribute or of one that is
no `SchemaSerializer`. -/
def lookup (d : ClassDict) : Except Unit (Option Ser) :=
  let isComplete := match d.complete with
    | some (.bool b) => b
    | _ => false
  if isComplete then
    match d.serializer with
    | some (.serializer v) =>
      match v with
      | .wrap _ _ _ => .ok none
      | v => .ok (some v)
    | _ => .error ()
  else .ok none

/-- `get_prebuilt`, `src/common/prebuilt.rs:7-50`, for a model or a dataclass. -/
def getPrebuilt (T : Classes) (c : Nat) (generic : Bool) : Except Unit (Option Ser) :=
  if generic then .ok none else lookup (T c)

/-- `CombinedSerializer::_build`, `src/serializers/shared.rs:152-208`: an error of the lookup is ignored (203). Validation
functions are passed over, `src/serializers/type_serializers/function.rs:26-60, 310-327`; for functions see 97-140 and 341-384
there. Errors in the schema are left out. -/
def build (T : Classes) : Sch → Ser
  | .leaf k => .leaf k
  | .list s => .list (build T s)
  | .pair s t => .pair (build T s) (build T t)
  | .model c s =>
    match getPrebuilt T c false with
    | .ok (some v) => .prebuilt v
    | _ => .model c (build T s)
  | .dataclass c generic s =>
    match getPrebuilt T c generic with
    | .ok (some v) => .prebuilt v
    | _ => .dataclass c (build T s)
  | .check s => build T s
  | .plain f always ret s => if always then .plain f (build T ret) else .plainOr f (build T ret) (build T s)
  | .wrap f ret s => .wrap f (build T ret) (build T s)

/-- What the serialisers do, whatever that is: one function per kind of serialiser. -/
structure Meaning (R : Type) where
  leaf : Nat → R
  list : R → R
  pair : R → R → R
  model : Nat → R → R
  dataclass : Nat → R → R
  plain : Nat → R → R
  plainOr : Nat → R → R → R
  wrap : Nat → R → R → R

/-- What a serialiser does; `PrebuiltSerializer` calls that of the class, `src/serializers/prebuilt.rs:31-70`. -/
def Ser.run {R : Type} (A : Meaning R) : Ser → R
  | .leaf k => A.leaf k
  | .list v => A.list (v.run A)
  | .pair v w => A.pair (v.run A) (w.run A)
  | .model c v => A.model c (v.run A)
  | .dataclass c v => A.dataclass c (v.run A)
  | .plain f ret => A.plain f (ret.run A)
  | .plainOr f ret v => A.plainOr f (ret.run A) (v.run A)
  | .wrap f ret v => A.wrap f (ret.run A) (v.run A)
  | .prebuilt v => v.run A

/-- `cls.__pydantic_serializer__ = SchemaSerializer(schema)` and `cls.__pydantic_complete__ = True`. -/
def define (T : Classes) (c : Nat) (s : Sch) : Classes :=
  fun d => if d = c then ⟨some (.bool true), some (.serializer (build T s))⟩ else T d

end PC.PrebuiltSer
