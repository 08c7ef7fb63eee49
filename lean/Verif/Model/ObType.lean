/-
How the serialisers tell what an object is: `src/serializers/ob_type.rs`.
-/

namespace PC.ObType

/-- The classes `ObTypeLookup` knows by their pointer (`src/serializers/ob_type.rs:15-51, 64-92`), and all others. -/
inductive Cls where
  | none | int | bool | float | list | dict | decimal | str | bytes | bytearray | tuple | set | frozenset
  | datetime | date | time | timedelta | url | multiHostUrl | complex | uuid | enum | generator | path | pattern
  | other (n : Nat)
  deriving DecidableEq

/-- `ObType`, `src/serializers/ob_type.rs:374-420`. -/
inductive ObType where
  | none | int | intSubclass | bool | float | floatSubclass | decimal | str | strSubclass | bytes | bytearray
  | list | tuple | set | frozenset | dict | datetime | date | time | timedelta | url | multiHostUrl
  | pydanticSerializable | dataclass | enum | generator | path | pattern | uuid | unknown | complex
  deriving DecidableEq

/-- `PartialEq for ObType`, `src/serializers/ob_type.rs:422-440`: an integer is equal to a subclass of `int`, and nothing is
equal to an unknown type. -/
def ObType.eq (s o : ObType) : Bool :=
  if s = o then !decide (s = .unknown)
  else
    match s, o with
    | .intSubclass, .int => true
    | .int, .intSubclass => true
    | .floatSubclass, .float => true
    | .float, .floatSubclass => true
    | .strSubclass, .str => true
    | .str, .strSubclass => true
    | _, _ => false

/-- `IsType`, `src/serializers/ob_type.rs:57-61`. -/
inductive IsType where
  | exact
  | subclass
  | no
  deriving DecidableEq

/-- What the lookup sees of an object: its class and the chain of `tp_base` pointers from there (`get_base_type`,
`src/serializers/ob_type.rs:442-450`), `isinstance`, whether it has the attributes `__pydantic_serializer__` and
`__dataclass_fields__` (without an exception), is itself a class (`is_instance_of::<PyType>`), whether the class of its class
is that of `Enum` (`is_enum`, 267-276), and whether it is an iterator (364-370). -/
structure Obj where
  cls : Cls
  bases : List Cls
  isInstance : Cls → Bool
  hasSerializer : Bool
  hasFields : Bool
  isClass : Bool
  enumMeta : Bool
  iterator : Bool

/-- `is_dataclass`, `src/serializers/ob_type.rs:342-351`. -/
def isDataclass : Option Obj → Bool
  | some v => v.hasFields && !v.isClass
  | Option.none => false

/-- `is_pydantic_serializable`, `src/serializers/ob_type.rs:353-362`. -/
def isPydanticSerializable : Option Obj → Bool
  | some v => v.hasSerializer && !v.isClass
  | Option.none => false

/-- `is_generator`, `src/serializers/ob_type.rs:364-370`. -/
def isGenerator : Option Obj → Bool
  | some v => v.iterator
  | Option.none => false

/-- `is_enum`, `src/serializers/ob_type.rs:267-276`. -/
def isEnum : Option Obj → Bool
  | some v => v.enumMeta
  | Option.none => false

/-- The comparison of one class with the type asked for, `src/serializers/ob_type.rs:117-165`; `some .subclass` is the early
`return` for integers given to the serialiser of `float`.  `Pattern` is compared with the class of paths (158). -/
def answer (op : Option Obj) (c : Cls) : ObType → Option IsType
  | .none => if c = .none then some .exact else Option.none
  | .int => if c = .int then some .exact else Option.none
  | .intSubclass => if c = .int ∧ op.isNone then some .exact else Option.none
  | .bool => if c = .bool then some .exact else Option.none
  | .float => if c = .float then some .exact else if c = .int then some .subclass else Option.none
  | .floatSubclass => if c = .float ∧ op.isNone then some .exact else Option.none
  | .str => if c = .str then some .exact else Option.none
  | .list => if c = .list then some .exact else Option.none
  | .dict => if c = .dict then some .exact else Option.none
  | .decimal => if c = .decimal then some .exact else Option.none
  | .strSubclass => if c = .str ∧ op.isNone then some .exact else Option.none
  | .tuple => if c = .tuple then some .exact else Option.none
  | .set => if c = .set then some .exact else Option.none
  | .frozenset => if c = .frozenset then some .exact else Option.none
  | .bytes => if c = .bytes then some .exact else Option.none
  | .datetime => if c = .datetime then some .exact else Option.none
  | .date => if c = .date then some .exact else Option.none
  | .time => if c = .time then some .exact else Option.none
  | .timedelta => if c = .timedelta then some .exact else Option.none
  | .bytearray => if c = .bytearray then some .exact else Option.none
  | .url => if c = .url then some .exact else Option.none
  | .multiHostUrl => if c = .multiHostUrl then some .exact else Option.none
  | .dataclass => if isDataclass op then some .exact else Option.none
  | .pydanticSerializable => if isPydanticSerializable op then some .exact else Option.none
  | .enum => if c = .enum then some .exact else Option.none
  | .generator => if c = .generator then some .exact else Option.none
  | .path => if c = .path then some .exact else Option.none
  | .pattern => if c = .path then some .exact else Option.none
  | .uuid => if c = .uuid then some .exact else Option.none
  | .unknown => Option.none
  | .complex => if c = .complex then some .exact else Option.none

/-- `ob_type_is_expected`, `src/serializers/ob_type.rs:111-179`, along the chain of bases. -/
def obTypeIsExpected (op : Option Obj) (c : Cls) (bases : List Cls) (t : ObType) : IsType :=
  match answer op c t with
  | some a => a
  | Option.none =>
    match bases with
    | [] => .no
    | b :: rest =>
      match obTypeIsExpected Option.none b rest t with
      | .no => .no
      | _ => .subclass

/-- `lookup_by_ob_type`, `src/serializers/ob_type.rs:188-265`, along the chain of bases. -/
def lookupByObType (op : Option Obj) (c : Cls) (bases : List Cls) : ObType :=
  if c = .none then .none
  else if c = .int then if op.isSome then .int else .intSubclass
  else if c = .bool then .bool
  else if c = .float then if op.isSome then .float else .floatSubclass
  else if c = .str then if op.isSome then .str else .strSubclass
  else if c = .list then .list
  else if c = .dict then .dict
  else if c = .decimal then .decimal
  else if c = .bytes then .bytes
  else if c = .tuple then .tuple
  else if c = .set then .set
  else if c = .frozenset then .frozenset
  else if c = .datetime then .datetime
  else if c = .date then .date
  else if c = .time then .time
  else if c = .timedelta then .timedelta
  else if c = .bytearray then .bytearray
  else if c = .url then .url
  else if c = .multiHostUrl then .multiHostUrl
  else if c = .complex then .complex
  else if c = .uuid then .uuid
  else if isPydanticSerializable op then .pydanticSerializable
  else if isDataclass op then .dataclass
  else if isEnum op then .enum
  else if c = .generator ∨ isGenerator op then .generator
  else if c = .path then .path
  else if c = .pattern then .pattern
  else
    match bases with
    | [] => .unknown
    | b :: rest => lookupByObType Option.none b rest

/-- `fallback_isinstance`, `src/serializers/ob_type.rs:278-339`. -/
def fallbackIsinstance (v : Obj) : ObType :=
  if v.isInstance .int then .intSubclass
  else if v.isInstance .str then .strSubclass
  else if v.isInstance .bytes then .bytes
  else if v.isInstance .list then .list
  else if v.isInstance .tuple then .tuple
  else if v.isInstance .dict then .dict
  else if v.isInstance .bool then .bool
  else if v.isInstance .float then .floatSubclass
  else if v.isInstance .bytearray then .bytearray
  else if v.isInstance .set then .set
  else if v.isInstance .frozenset then .frozenset
  else if v.isInstance .datetime then .datetime
  else if v.isInstance .date then .date
  else if v.isInstance .time then .time
  else if v.isInstance .timedelta then .timedelta
  else if v.isInstance .url then .url
  else if v.isInstance .multiHostUrl then .multiHostUrl
  else if v.isInstance .decimal then .decimal
  else if v.isInstance .uuid then .uuid
  else if v.isInstance .enum then .enum
  else if v.isInstance .generator then .generator
  else if v.isInstance .path then .path
  else if v.isInstance .pattern then .pattern
  else .unknown

/-- `is_type`, `src/serializers/ob_type.rs:98-109`. -/
def isType (v : Obj) (t : ObType) : IsType :=
  match obTypeIsExpected (some v) v.cls v.bases t with
  | .no => if t.eq (fallbackIsinstance v) then .subclass else .no
  | a => a

/-- `get_type`, `src/serializers/ob_type.rs:181-186`. -/
def getType (v : Obj) : ObType :=
  match lookupByObType (some v) v.cls v.bases with
  | .unknown => fallbackIsinstance v
  | t => t

end PC.ObType
