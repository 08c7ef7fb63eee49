/-
Definitions and references: building a validator (or serialiser) from a schema with definitions.
-/

namespace PC.Defs

mutual
/-- Schemas, as far as definitions are concerned.  `node` is any schema with sub-schemas, built in order
(`src/validators/mod.rs:558-660`, `build_validator`); `fail` one whose construction fails for another
reason; `leaf` one without sub-schemas, also one for which a prebuilt validator is used
(`src/validators/mod.rs:568-571`). -/
inductive Sch where
  | leaf (n : Nat)
  | fail
  | node (kids : Schs)
  | ref (r : String)
  | defs (ds : Dfs) (inner : Sch)
/-- A list of schemas. -/
inductive Schs where
  | nil
  | cons (s : Sch) (rest : Schs)
/-- The entries of the `definitions` list: schemas with their `ref`. -/
inductive Dfs where
  | nil
  | cons (r : String) (s : Sch) (rest : Dfs)
end

/-- `DefinitionRef`, `src/definitions.rs:40-46`: the name and the (weak) address of the slot. The cached
`name` is left out. -/
structure DefRef where
  reference : String
  id : Nat
  deriving DecidableEq

mutual
/-- The validators built, as far as definitions are concerned. -/
inductive Built where
  | leaf (n : Nat)
  | node (kids : Builts)
  | ref (d : DefRef)
/-- A list of validators. -/
inductive Builts where
  | nil
  | cons (v : Built) (rest : Builts)
end

/-- `Definition`, `src/definitions.rs:34-37`, with its address; `value` is a `OnceLock`. -/
structure Slot where
  reference : String
  id : Nat
  value : Option Built

/-- `DefinitionsBuilder`, `src/definitions.rs:133-135`. The hash map is a list of slots; the address of a
slot is its number in order of creation. -/
structure Builder where
  slots : List Slot

/-- Construction errors: `Duplicate ref`, `definition … was never filled`, any other. -/
inductive Err where
  | duplicate (r : String)
  | neverFilled (r : String)
  | other
  deriving DecidableEq

/-- The slot of a reference: the lookup `self.definitions.0.entry(reference)`. -/
def Builder.find (b : Builder) (r : String) : Option Slot := b.slots.find? (fun s => s.reference == r)

/-- `DefinitionsBuilder::get_definition`, `src/definitions.rs:145-162`. -/
def Builder.getDefinition (b : Builder) (r : String) : DefRef × Builder :=
  match b.find r with
  | some s => (⟨r, s.id⟩, b)
  | none => (⟨r, b.slots.length⟩, ⟨b.slots ++ [⟨r, b.slots.length, none⟩]⟩)

/-- `OnceLock::set` on the slot of `r`. -/
def fill (r : String) (v : Built) (slots : List Slot) : List Slot :=
  slots.map (fun s => if s.reference == r then { s with value := some v } else s)

/-- `DefinitionsBuilder::add_definition`, `src/definitions.rs:165-187`. -/
def Builder.addDefinition (b : Builder) (r : String) (v : Built) : Except Err Builder :=
  match b.find r with
  | some s =>
    match s.value with
    | some _ => .error (.duplicate r)
    | none => .ok ⟨fill r v b.slots⟩
  | none => .ok ⟨b.slots ++ [⟨r, b.slots.length, some v⟩]⟩

mutual
/-- `build_validator`, `src/validators/mod.rs:558-660`; the cases `definitions` and `definition-ref` are
`DefinitionsValidatorBuilder::build` and `DefinitionRefValidator::build`,
`src/validators/definitions.rs:21-40` and `:57-66` (serialisers:
`src/serializers/type_serializers/definitions.rs:21-40`, `:69-81`). -/
def build : Sch → Builder → Except Err (Built × Builder)
  | .leaf n, b => .ok (.leaf n, b)
  | .fail, _ => .error .other
  | .node kids, b =>
    match buildAll kids b with
    | .error e => .error e
    | .ok (vs, b') => .ok (.node vs, b')
  | .ref r, b => .ok (.ref (b.getDefinition r).1, (b.getDefinition r).2)
  | .defs ds inner, b =>
    match buildDefs ds b with
    | .error e => .error e
    | .ok b' => build inner b'
/-- The sub-schemas of a schema, in order. -/
def buildAll : Schs → Builder → Except Err (Builts × Builder)
  | .nil, b => .ok (.nil, b)
  | .cons s rest, b =>
    match build s b with
    | .error e => .error e
    | .ok (v, b') =>
      match buildAll rest b' with
      | .error e => .error e
      | .ok (vs, b'') => .ok (.cons v vs, b'')
/-- The loop over the definitions, `src/validators/definitions.rs:30-36`. -/
def buildDefs : Dfs → Builder → Except Err Builder
  | .nil, b => .ok b
  | .cons r s rest, b =>
    match build s b with
    | .error e => .error e
    | .ok (v, b') =>
      match b'.addDefinition r v with
      | .error e => .error e
      | .ok b'' => buildDefs rest b''
end

/-- `DefinitionsBuilder::finish`, `src/definitions.rs:188-195`. The order in which the hash map is walked
is that of the list; which unfilled definition is reported therefore may differ. -/
def Builder.finish (b : Builder) : Except Err (List Slot) :=
  match b.slots.find? (fun s => s.value.isNone) with
  | some s => .error (.neverFilled s.reference)
  | none => .ok b.slots

/-- `SchemaValidator`, `src/validators/mod.rs:109-120`: the validator and the definitions it owns. -/
structure Validator where
  root : Built
  definitions : List Slot

/-- `SchemaValidator::py_new`, `src/validators/mod.rs:127-160`. -/
def schemaValidator (s : Sch) : Except Err Validator :=
  match build s ⟨[]⟩ with
  | .error e => .error e
  | .ok (v, b) =>
    match b.finish with
    | .error e => .error e
    | .ok slots => .ok ⟨v, slots⟩

/-- `DefinitionRef::read`, `src/definitions.rs:74-76`. The reference is weak: `owner` is `none` once the
`SchemaValidator` that owns the definitions is gone. -/
def DefRef.read (d : DefRef) (owner : Option (List Slot)) : Option Built :=
  match owner with
  | none => none
  | some slots =>
    match slots.find? (fun s => s.id == d.id) with
    | none => none
    | some s => s.value

/-- The start of `DefinitionRefValidator::validate`, `src/validators/definitions.rs:81-82` (likewise
`default_value`, `validate_assignment`, and the serialiser,
`src/serializers/type_serializers/definitions.rs:94-95`): `validator.unwrap()`; `none` is a panic. -/
def refValidate {γ : Type} (d : DefRef) (owner : Option (List Slot)) (run : Built → γ) : Option γ :=
  (d.read owner).map run

end PC.Defs
