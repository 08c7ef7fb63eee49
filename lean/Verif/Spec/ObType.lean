import Verif.Model.ObType

/-
C95: what an object is serialised as, in terms of its class, its bases and the marks it carries.
-/

namespace PC.ObType

/-- The types an object of which is recognised before anything else is asked. -/
def Cls.builtin : Cls → Option ObType
  | .none => some .none
  | .int => some .int
  | .bool => some .bool
  | .float => some .float
  | .list => some .list
  | .dict => some .dict
  | .decimal => some .decimal
  | .str => some .str
  | .bytes => some .bytes
  | .bytearray => some .bytearray
  | .tuple => some .tuple
  | .set => some .set
  | .frozenset => some .frozenset
  | .datetime => some .datetime
  | .date => some .date
  | .time => some .time
  | .timedelta => some .timedelta
  | .url => some .url
  | .multiHostUrl => some .multiHostUrl
  | .complex => some .complex
  | .uuid => some .uuid
  | _ => Option.none

/-- What an object is that inherits from a class: a subclass of `int`, `float` or `str` is told from the class itself. -/
def Cls.inherited : Cls → Option ObType
  | .int => some .intSubclass
  | .float => some .floatSubclass
  | .str => some .strSubclass
  | .generator => some .generator
  | .path => some .path
  | .pattern => some .pattern
  | c => c.builtin

/-- What an instance of a class is, if nothing else tells. -/
def Cls.instance : Cls → ObType
  | .enum => .enum
  | c => c.inherited.getD .unknown

/-- The classes asked for by `isinstance`, in order. -/
def askedInOrder : List Cls :=
  [.int, .str, .bytes, .list, .tuple, .dict, .bool, .float, .bytearray, .set, .frozenset, .datetime, .date, .time, .timedelta,
    .url, .multiHostUrl, .decimal, .uuid, .enum, .generator, .path, .pattern]

/-- The class of an object, and its bases. -/
def Obj.chain (v : Obj) : List Cls := v.cls :: v.bases

/-- An object that is an instance of a model or dataclass, a member of an enum, or an iterator. -/
def Obj.Marked (v : Obj) : Prop :=
  v.isClass = false ∧ (v.hasSerializer = true ∨ v.hasFields = true) ∨ v.enumMeta = true ∨ v.iterator = true

/-- No class of the chain is known. -/
def Obj.Foreign (v : Obj) : Prop := ∀ c ∈ v.chain, c.inherited = Option.none

/-- `isinstance` knows the bases, and that the members of enums are members. -/
structure Obj.Honest (v : Obj) : Prop where
  bases : ∀ c ∈ v.chain, v.isInstance c = true
  enum : v.enumMeta = true → v.isInstance .enum = true

/-- The class an object of a type is an instance of; none for models, dataclasses, iterators and what is unknown. -/
def ObType.cls : ObType → Option Cls
  | .none => some .none
  | .int | .intSubclass => some .int
  | .bool => some .bool
  | .float | .floatSubclass => some .float
  | .decimal => some .decimal
  | .str | .strSubclass => some .str
  | .bytes => some .bytes
  | .bytearray => some .bytearray
  | .list => some .list
  | .tuple => some .tuple
  | .set => some .set
  | .frozenset => some .frozenset
  | .dict => some .dict
  | .datetime => some .datetime
  | .date => some .date
  | .time => some .time
  | .timedelta => some .timedelta
  | .url => some .url
  | .multiHostUrl => some .multiHostUrl
  | .enum => some .enum
  | .path => some .path
  | .pattern => some .pattern
  | .uuid => some .uuid
  | .complex => some .complex
  | .pydanticSerializable | .dataclass | .generator | .unknown => Option.none

end PC.ObType
