import Verif.Model.SerConfig

/-
What C116 says about the configuration that values are written with.
-/

namespace PC.SerConfig

/-- The name of a mode in a configuration. -/
def AnyMode.name : AnyMode → String
  | .timedelta .iso8601 => "iso8601"
  | .timedelta .float => "float"
  | .bytes .utf8 => "utf8"
  | .bytes .base64 => "base64"
  | .bytes .hex => "hex"
  | .infNan .null => "null"
  | .infNan .constants => "constants"
  | .infNan .strings => "strings"

/-- The documented defaults of a configuration. -/
def standard : Kind → AnyMode
  | .timedelta => .timedelta .iso8601
  | .bytes => .bytes .utf8
  | .float => .infNan .null

/-- What a configuration has for a type of values. -/
def entry : Option Cfg → Kind → Option Item
  | none, _ => none
  | some c, .timedelta => c.timedelta
  | some c, .bytes => c.bytes
  | some c, .float => c.infNan

/-- A configuration says that values of type `k` are written in mode `m`. -/
def Says (c : Option Cfg) (k : Kind) (m : AnyMode) : Prop :=
  m.kind = k ∧ (entry c k = none ∧ m = standard k ∨ entry c k = some (.str m.name))

/-- One step into a value or into what is written of it. -/
inductive Step where
  | i (n : Nat)
  | k (key : String)

/-- The part of the JSON at a position. -/
def Out.at : Out → List Step → Option Out
  | o, [] => some o
  | .list os, .i n :: p => match os[n]? with
    | some o => o.at p
    | none => none
  | .dict fs, .k key :: p => match fs.lookup key with
    | some o => o.at p
    | none => none
  | _, _ :: _ => none

/-- A class of models: the configuration in its schema, its fields, and the configuration of its serialiser. -/
structure Class where
  own : Option Cfg
  fields : List (String × Schema)
  config : Option Cfg

/-- The value is one that the schema describes, as far as serialisation looks. -/
def Fits : Schema → Value → Prop
  | .leaf k, .atom a => a.kind = k
  | .list _, .list _ => True
  | .typedDict _ _, .dict _ => True
  | .model _ _, .obj _ _ => True
  | _, _ => False

/-- `Governs C root scope s v p a c`: in the value `v` of schema `s` the atom `a` is at position `p`, and `c` is the
configuration that governs it. `scope` is the configuration around `s`, `root` that of the serialiser.

* Where the schema knows the type, it is the configuration around it: that of the nearest model, or else that of the
  serialiser. Nothing is inherited from further out.
* Where it does not (`any`, or a value of another type), it is that of the serialiser; inside an instance of a model
  that is met there, it is as if the instance were serialised by its class. -/
inductive Governs (C : Nat → Class) : Option Cfg → Option Cfg → Schema → Value → List Step → Atom → Option Cfg → Prop where
  | leaf {root scope k a} : a.kind = k → Governs C root scope (.leaf k) (.atom a) [] a scope
  | item {root scope s vs n v p a c} : vs[n]? = some v → Governs C root scope s v p a c →
      Governs C root scope (.list s) (.list vs) (.i n :: p) a c
  | typedDict {root scope own fs kvs k s v p a c} : fs.lookup k = some s → kvs.lookup k = some v →
      Governs C root scope s v p a c → Governs C root scope (.typedDict own fs) (.dict kvs) (.k k :: p) a c
  | model {root scope own fs cls kvs k s v p a c} : fs.lookup k = some s → kvs.lookup k = some v →
      Governs C root own s v p a c → Governs C root scope (.model own fs) (.obj cls kvs) (.k k :: p) a c
  | unknownAtom {root scope s a} : ¬ Fits s (.atom a) → Governs C root scope s (.atom a) [] a root
  | unknownItem {root scope s vs n v p a c} : ¬ Fits s (.list vs) → vs[n]? = some v →
      Governs C root root .any v p a c → Governs C root scope s (.list vs) (.i n :: p) a c
  | unknownValue {root scope s kvs k v p a c} : ¬ Fits s (.dict kvs) → kvs.lookup k = some v →
      Governs C root root .any v p a c → Governs C root scope s (.dict kvs) (.k k :: p) a c
  | unknownObject {root scope s cls kvs k t v p a c} : ¬ Fits s (.obj cls kvs) → (C cls).fields.lookup k = some t →
      kvs.lookup k = some v → Governs C (C cls).config (C cls).own t v p a c →
      Governs C root scope s (.obj cls kvs) (.k k :: p) a c

/-- The serialisers of the classes are those that their schemas give. -/
def Made (C : Nat → Class) (W : World) : Prop :=
  ∀ cls, SchemaSerializer.new (.model (C cls).own (C cls).fields) (C cls).config = .ok ⟨.model (W.fields cls), W.modes cls⟩

/-- `Uses s scope k c`: somewhere in `s` there is a schema of type `k`, and `c` is the configuration around it. -/
inductive Uses : Schema → Option Cfg → Kind → Option Cfg → Prop where
  | leaf {k c} : Uses (.leaf k) c k c
  | item {s scope k c} : Uses s scope k c → Uses (.list s) scope k c
  | typedDict {own fs n s scope k c} : (n, s) ∈ fs → Uses s scope k c → Uses (.typedDict own fs) scope k c
  | model {own fs n s scope k c} : (n, s) ∈ fs → Uses s own k c → Uses (.model own fs) scope k c

end PC.SerConfig
