/-
Model of the names of validators in recursive schemas, which make up the locations of errors in unions:
`get_name` of references and lists, with the caches of `src/definitions.rs`.
-/

namespace PC.Naming

/-- What the name of a validator depends on once the validator is built.

* `const s`: the name was fixed when the validator was built (e.g. `src/validators/union.rs` 223-225, 376-378,
  `tuple.rs` 315-317, `dict.rs` 87-89, `nullable.rs` 48-50) or is that of a class or of a simple type.
* `list l item`: the `l`th list in the schema (`src/validators/list.rs` 162-180); a list without item schema
  has the item `const "any"` (170).
* `ref d`: a reference to the definition `d` (`src/validators/definitions.rs` 124-126).

Validators that pass the question on (`src/validators/prebuilt.rs` 43-45) are identified with the validator
they pass it to. Simplification: the schema is built, so that the definition of every reference is there
(`src/definitions.rs` 64-72 answers `"..."` for others). -/
inductive Named where
  | const (s : String)
  | list (l : Nat) (item : Named)
  | ref (d : Nat)
deriving DecidableEq, Repr

/-- The cached names: of definitions (`LazyName`, `src/definitions.rs` 34-37, 249-262; `busy` lists the
definitions with `in_recursion` set) and of lists (`src/validators/list.rs` 25). -/
structure Names where
  defs : Nat → Option String
  lists : Nat → Option String
  busy : List Nat

/-- No name is cached: `src/definitions.rs` 213-220, 252-256, `src/validators/list.rs` 134. -/
def Names.new : Names := ⟨fun _ => none, fun _ => none, []⟩

/-- The name of a definition is cached: `src/definitions.rs` 238. -/
def Names.setDef (c : Names) (d : Nat) (s : String) : Names :=
  { c with defs := fun e => if e = d then some s else c.defs e }

/-- The name of a list is cached: `src/validators/list.rs` 175. -/
def Names.setList (c : Names) (l : Nat) (s : String) : Names :=
  { c with lists := fun e => if e = l then some s else c.lists e }

/-- `get_name` of a list, given the name of the item (`some (name, c)`, `c` being the caches after asking
for it): `src/validators/list.rs` 171-176. -/
def listName (l : Nat) : Option (String × Names) → Option (String × Names)
  | none => none
  | some (name, c) =>
    if name = "..." then some ("list[...]", c)
    else
      match c.lists l with
      | some s => some (s, c)
      | none => some ("list[" ++ name ++ "]", c.setList l ("list[" ++ name ++ "]"))

/-- `get_name` of a validator, given that of references: `src/validators/list.rs` 162-180. The answer `none`
is a computation that does not come to an end within the fuel. -/
def nameWith (ref : Nat → Names → Option (String × Names)) : Named → Names → Option (String × Names)
  | .const s, c => some (s, c)
  | .list l item, c =>
    match c.lists l with
    | some s => some (s, c)
    | none => listName l (nameWith ref item c)
  | .ref d, c => ref d c

/-- `get_name` of a reference: `src/validators/definitions.rs` 124-126 with `get_or_init_name`
(`src/definitions.rs` 64-72), `LazyName::get_or_init` (258-261) and `RecursionSafeCache::get_or_init`
(223-241). `body d` is the definition `d`. The fuel bounds the depth of nested references. Simplification:
one thread. -/
def nameRef (body : Nat → Named) : Nat → Nat → Names → Option (String × Names)
  | 0, _, _ => none
  | n + 1, d, c =>
    match c.defs d with
    | some s => some (s, c)
    | none =>
      if d ∈ c.busy then some ("...", c)
      else
        match nameWith (nameRef body n) (body d) { c with busy := d :: c.busy } with
        | none => none
        | some (s, c') => some (s, { c'.setDef d s with busy := c'.busy.erase d })

/-- `get_name` of any validator: `src/validators/mod.rs` 876-878. -/
def name (body : Nat → Named) (fuel : Nat) (v : Named) (c : Names) : Option (String × Names) :=
  nameWith (nameRef body fuel) v c

/-- The names of several validators of one schema are asked for in turn, as unions do when they report errors
(`src/validators/union.rs` 271). The answer is the last one. -/
def nameAll (body : Nat → Named) (fuel : Nat) : List Named → Named → Names → Option String
  | [], v, c => (name body fuel v c).map (·.1)
  | w :: ws, v, c =>
    match name body fuel w c with
    | none => none
    | some (_, c') => nameAll body fuel ws v c'

end PC.Naming
