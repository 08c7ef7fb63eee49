import Verif.Model.Numbers

/-
Model of `src/validators/literal.rs` and `src/validators/enum_.rs`.  Python objects have a type
`α`; what the code asks of them is collected in `PyOps`.
-/

namespace PC.Lit
open PC.Num

/-- What the code observes of Python objects.  `keyEq k x` says whether a dict having the key `k`
finds it under `x` (identity or equality; equal hashable objects have equal hashes); `eq` is `==`
with errors counted as false. -/
structure PyOps (α : Type) where
  /-- `validate_bool(true)`: the object is a `bool`. -/
  strictBool : α → Option Bool
  /-- `is_exact_instance_of::<PyInt>` and its value. -/
  exactInt : α → Option Int
  /-- `exact_str`: the object is exactly a `str`. -/
  exactStr : α → Option (List Char)
  hashable : α → Bool
  keyEq : α → α → Bool
  eq : α → α → Bool

/-- A Python dict from objects to ids, in insertion order. -/
abbrev IdDict (α : Type) := List (α × Nat)

/-- `PyDict::set_item` with a hashable key: the key first inserted stays, its value changes. -/
def IdDict.set (keyEq : α → α → Bool) (k : α) (id : Nat) : IdDict α → IdDict α
  | [] => [(k, id)]
  | (k', id') :: rest =>
    if keyEq k' k then (k', id) :: rest else (k', id') :: IdDict.set keyEq k id rest

/-- `PyDict::get_item` with a hashable key. -/
def IdDict.get (keyEq : α → α → Bool) (x : α) : IdDict α → Option Nat
  | [] => none
  | (k, id) :: rest => if keyEq k x then some id else IdDict.get keyEq x rest

/-- `LiteralLookup`, `src/validators/literal.rs:26-45`.  An empty table stands for `None`.
`AHashMap`s are association lists, the newest entry first. -/
structure Lookup (α β : Type) where
  trueId : Option Nat := none
  falseId : Option Nat := none
  ints : List (Int64 × Nat) := []
  strs : List (List Char × Nat) := []
  pyDict : IdDict α := []
  pyValues : List (α × Nat) := []
  prims : IdDict α := []
  values : List β := []

/-- The bool part of the loop body of `LiteralLookup::new`,
`src/validators/literal.rs:60-67`. -/
def Lookup.addBool (o : PyOps α) (k : α) (id : Nat) (l : Lookup α β) : Lookup α β :=
  match o.strictBool k with
  | some true => { l with trueId := some id, prims := l.prims.set o.keyEq k id }
  | some false => { l with falseId := some id, prims := l.prims.set o.keyEq k id }
  | none => l

/-- The rest of the loop body of `LiteralLookup::new`, `src/validators/literal.rs:68-84`. -/
def Lookup.addOther (o : PyOps α) (k : α) (id : Nat) (l : Lookup α β) : Lookup α β :=
  match o.exactInt k with
  | some n =>
    match extractI64 n with
    | some i => { l with ints := (i, id) :: l.ints, prims := l.prims.set o.keyEq k id }
    | none => { l with pyDict := l.pyDict.set o.keyEq k id }
  | none =>
    match o.exactStr k with
    | some s => { l with strs := (s, id) :: l.strs, prims := l.prims.set o.keyEq k id }
    | none =>
      if o.hashable k then { l with pyDict := l.pyDict.set o.keyEq k id }
      else { l with pyValues := l.pyValues ++ [(k, id)] }

/-- The loop body of `LiteralLookup::new`, `src/validators/literal.rs:56-85`. -/
def Lookup.add (o : PyOps α) (l : Lookup α β) (kv : α × β) : Lookup α β :=
  let id := l.values.length
  Lookup.addOther o kv.1 id (Lookup.addBool o kv.1 id { l with values := l.values ++ [kv.2] })

/-- `LiteralLookup::new`, `src/validators/literal.rs:48-97`. -/
def Lookup.new (o : PyOps α) (expected : List (α × β)) : Lookup α β :=
  expected.foldl (Lookup.add o) {}

/-- What `LiteralLookup::validate` asks of an input.  For a JSON input `obj` is the Python object
built from it (`to_object`). -/
structure LitInput (α : Type) where
  /-- `validate_bool(true)`. -/
  bool : Option Bool
  /-- `exact_int`. -/
  int : Option Int
  /-- `exact_str` for a Python object, `validate_str(true, false)` for JSON. -/
  str : Option (List Char)
  obj : α

/-- A Python object as input. -/
def LitInput.ofPy (o : PyOps α) (x : α) : LitInput α :=
  ⟨o.strictBool x, o.exactInt x, o.exactStr x, x⟩

/-- The bool step of `LiteralLookup::validate`, `src/validators/literal.rs:104-114`. -/
def Lookup.findBool (l : Lookup α β) (x : LitInput α) : Option Nat :=
  match x.bool with
  | some true => l.trueId
  | some false => l.falseId
  | none => none

/-- The int step, `src/validators/literal.rs:115-122`; the error is `int_parsing_size`. -/
def Lookup.findInt (l : Lookup α β) (x : LitInput α) : Except ErrType (Option Nat) :=
  if l.ints.isEmpty then .ok none
  else
    match x.int with
    | none => .ok none
    | some n =>
      match extractI64 n with
      | none => .error (.other "int_parsing_size")
      | some i => .ok (l.ints.lookup i)

/-- The str step, `src/validators/literal.rs:123-142`. -/
def Lookup.findStr (l : Lookup α β) (x : LitInput α) : Option Nat :=
  match x.str with
  | some s => l.strs.lookup s
  | none => none

/-- A lookup in one of the two Python dicts, an unhashable input being a failed lookup,
`src/validators/literal.rs:153-162`, `:174-184`. -/
def findDict (o : PyOps α) (d : IdDict α) (x : α) : Option Nat :=
  if o.hashable x then d.get o.keyEq x else none

/-- The search among unhashable members, `src/validators/literal.rs:163-170`. -/
def findValue (o : PyOps α) : List (α × Nat) → α → Option Nat
  | [], _ => none
  | (k, id) :: rest, x => if o.eq k x then some id else findValue o rest x

/-- The steps after the bool and int ones, `src/validators/literal.rs:123-185`. -/
def Lookup.findRest (o : PyOps α) (l : Lookup α β) (x : LitInput α) : Option Nat :=
  match l.findStr x with
  | some id => some id
  | none =>
    match findDict o l.pyDict x.obj with
    | some id => some id
    | none =>
      match findValue o l.pyValues x.obj with
      | some id => some id
      | none => findDict o l.prims x.obj

/-- `LiteralLookup::validate`, `src/validators/literal.rs:99-186`, as the id found. -/
def Lookup.find (o : PyOps α) (l : Lookup α β) (x : LitInput α) : Except ErrType (Option Nat) :=
  match l.findBool x with
  | some id => .ok (some id)
  | none =>
    match l.findInt x with
    | .error e => .error e
    | .ok (some id) => .ok (some id)
    | .ok none => .ok (l.findRest o x)

/-- `&self.values[id]`; an index out of bounds would panic, here it is `none`
(`find_bound` in the lemmas shows that this does not happen). -/
def Lookup.validate (o : PyOps α) (l : Lookup α β) (x : LitInput α) : Except ErrType (Option β) :=
  match l.find o x with
  | .error e => .error e
  | .ok none => .ok none
  | .ok (some id) => .ok (l.values[id]?)

/-- `LiteralValidator::validate`, `src/validators/literal.rs:282-298`. -/
def validate (o : PyOps α) (expected : List α) (x : LitInput α) : Checked α :=
  match (Lookup.new o (expected.map fun v => (v, v))).validate o x with
  | .error e => .err e
  | .ok (some v) => .ok v
  | .ok none => .err (.other "literal_error")

/-! ### Enums -/

/-- `LiteralLookup::validate_int`, `src/validators/literal.rs:186-202`; `int` is what
`input.validate_int(strict)` gives. -/
def Lookup.validateInt (l : Lookup α β) (int : Option Int) : Except ErrType (Option β) :=
  if l.ints.isEmpty then .ok none
  else
    match int with
    | none => .ok none
    | some n =>
      match extractI64 n with
      | none => .error (.other "int_parsing_size")
      | some i =>
        match l.ints.lookup i with
        | some id => .ok (l.values[id]?)
        | none => .ok none

/-- `LiteralLookup::validate_str`, `src/validators/literal.rs:204-215`; `str` is what
`input.validate_str(strict, false)` gives. -/
def Lookup.validateStr (l : Lookup α β) (str : Option (List Char)) : Option β :=
  match str with
  | some s =>
    match l.strs.lookup s with
    | some id => l.values[id]?
    | none => none
  | none => none

/-- `LiteralLookup::validate_float`, `src/validators/literal.rs:217-234`; `float` is the Python
float made from `input.validate_float(strict)`. -/
def Lookup.validateFloat (o : PyOps α) (l : Lookup α β) (float : Option α) : Option β :=
  match float with
  | some f =>
    match findDict o l.pyDict f with
    | some id => l.values[id]?
    | none => none
  | none => none

/-- What `EnumValidator` asks of an input besides `LitInput`. -/
structure EnumInput (α : Type) extends LitInput α where
  /-- `as_python`: the object, for a Python input. -/
  py : Option α
  /-- `validate_int`, by strictness. -/
  anyInt : Bool → Option Int
  /-- `validate_str(_, false)`, by strictness. -/
  anyStr : Bool → Option (List Char)
  /-- `validate_float` as a Python float, by strictness. -/
  anyFloat : Bool → Option α
  /-- The input is an instance of `str`, `int`, `float` (or of a subclass). -/
  isStr : Bool
  isInt : Bool
  isFloat : Bool

/-- The `sub_type` of an enum schema, `src/validators/enum_.rs:66-73`. -/
inductive SubType where
  | plain
  | int
  | str
  | float
  deriving DecidableEq, Repr

/-- The lax fallback of `PlainEnumValidator`, `src/validators/enum_.rs:182-196`. -/
def plainFallback (l : Lookup α β) (x : EnumInput α) (strict : Bool) : Except ErrType (Option β) :=
  if !strict && x.py.isSome then
    if x.isStr then .ok (l.validateStr (x.anyStr false))
    else if x.isInt then l.validateInt (x.anyInt false)
    else if x.isFloat then l.validateInt (x.anyInt false)
    else .ok none
  else .ok none

/-- `EnumValidateValue::validate_value` of the four kinds of enum,
`src/validators/enum_.rs:174-199`, `:208-215`, `:224-231`, `:240-247`. -/
def enumValue (o : PyOps α) (t : SubType) (l : Lookup α β) (x : EnumInput α) (strict : Bool) :
    Except ErrType (Option β) :=
  match t with
  | .plain =>
    match l.validate o x.toLitInput with
    | .error e => .error e
    | .ok (some v) => .ok (some v)
    | .ok none => plainFallback l x strict
  | .int => l.validateInt (x.anyInt strict)
  | .str => .ok (l.validateStr (x.anyStr strict))
  | .float => .ok (l.validateFloat o (x.anyFloat strict))

/-- What an enum class does. -/
structure EnumClass (α : Type) where
  /-- `is_exact_instance(class)`. -/
  isMember : α → Bool
  /-- Calling the class; `none` is an exception. -/
  call : α → Option α
  /-- Python's `None`. -/
  pyNone : α
  /-- The `missing` function of the schema; `none` inside is an exception. -/
  missing : Option (α → Option α)
  /-- `is_instance(class)`. -/
  isInstance : α → Bool
  isNone : α → Bool

/-- The end of `EnumValidator::validate`, `src/validators/enum_.rs:127-160`. -/
def enumMissing (c : EnumClass α) (x : EnumInput α) : Checked α :=
  match c.missing with
  | none => .err (.other "enum")
  | some missing =>
    match missing x.obj with
    | none => .err (.other "enum")
    | some v =>
      if c.isInstance v then .ok v
      else if c.isNone v then .err (.other "enum")
      else .panic

/-- `EnumValidator::validate`, `src/validators/enum_.rs:99-161`.  `input.as_python()` is `None`
for a JSON input, and passed to the class as Python's `None` (line 125).  `.panic` stands for the
`TypeError` raised when the `missing` function returns something else.  `pythonInput` is
`state.extra().input_type == InputType::Python`. -/
def enumValidate (o : PyOps α) (c : EnumClass α) (t : SubType) (l : Lookup α α) (strict : Bool)
    (pythonInput : Bool) (x : EnumInput α) : Checked α :=
  match x.py.filter c.isMember with
  | some v => .ok v
  | none =>
    if strict && pythonInput then .err (.other "is_instance_of")
    else
      match enumValue o t l x strict with
      | .error e => .err e
      | .ok (some v) => .ok v
      | .ok none =>
        match c.call (x.py.getD c.pyNone) with
        | some v => .ok v
        | none => enumMissing c x

end PC.Lit
