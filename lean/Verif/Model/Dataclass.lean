import Verif.Model.Arguments

/-
Model of `src/validators/dataclass.rs`: validation of the arguments of a dataclass, of dataclass
instances and of assignments to their attributes.
-/

namespace PC.Dc
open PC.Lookup PC.Fields PC.Args
variable {α : Type}

/-- `Field`, `src/validators/dataclass.rs:24-33`.  `run` and `dflt` are the validator's `validate`
and `default_value`. -/
structure DcField (α : Type) where
  kwOnly : Bool
  name : String
  init : Bool
  initOnly : Bool
  keys : KeyCollection
  run : Validator α α
  dflt : Option LocItem → VState α → ValResult α (Option α) × VState α
  frozen : Bool

/-- `DataclassArgsValidator`, `src/validators/dataclass.rs:36-47`.  `collectInitOnly` says whether
`init_only_count` is `Some`; `asArgs` is `Input::validate_dataclass_args`. -/
structure DcArgs (α : Type) where
  fields : List (DcField α)
  collectInitOnly : Bool
  extra : ExtraBehavior
  extrasV : Option (Validator α α)
  locByAlias : Bool
  byAlias : Option Bool
  byName : Option Bool
  asArgs : α → ValResult α (ArgsView α)
  keyOps : KeyOps α

/-- `positional_count`, `src/validators/dataclass.rs:70,91-94`: the number of fields that are not
keyword-only (whether or not they are `init` fields). -/
def posFields : List (DcField α) → Nat
  | [] => 0
  | f :: fs => if f.kwOnly then posFields fs else posFields fs + 1

/-- What `validate` returns, `src/validators/dataclass.rs:363-367`: the dict of attributes, and the
tuple of init-only values (`none`: Python `None`). -/
structure DcOut (α : Type) where
  dict : Dict α
  initOnly : Option (List α)
  deriving DecidableEq, Repr

/-- The local variables of `validate`, `src/validators/dataclass.rs:151-162`.  `initOnly` is kept
also when the code does not collect it (it is not consulted then). -/
structure DAcc (α : Type) where
  dict : Dict α
  initOnly : List α
  errs : List (LineError α)
  used : List String
  count : Nat
  st : VState α

/-- `set_item!`, `src/validators/dataclass.rs:164-175`. -/
def DAcc.setItem (acc : DAcc α) (f : DcField α) (v : α) : DAcc α :=
  if f.initOnly then { acc with initOnly := acc.initOnly ++ [v] }
  else { acc with dict := acc.dict.set f.name v }

/-- A field that is not an `init` field, `src/validators/dataclass.rs:179-195`. -/
def noInitStep (f : DcField α) (acc : DAcc α) : ValResult α Unit × DAcc α :=
  let r := rebindExtra (fun x => { x with data := some acc.dict }) (f.dflt (some (.s f.name))) acc.st
  let acc := { acc with st := r.2 }
  match r.1 with
  | .ok (some v) =>
    let acc := acc.setItem f v
    (.ok (), { acc with count := acc.count + 1 })
  | .ok none => (.ok (), acc)
  | .error .omitted => (.ok (), acc)
  | .error (.lineErrors ls) => (.ok (), { acc with errs := acc.errs ++ ls })
  | .error e => (.error e, acc)

/-- The positional value of a field, `src/validators/dataclass.rs:197-202`. -/
def posValue (view : ArgsView α) (f : DcField α) (index : Nat) : Option α :=
  match view.args with
  | some args => if f.kwOnly then none else args[index]?
  | none => none

/-- The lookup of a keyword argument, `src/validators/dataclass.rs:204-214`. -/
def lookup (view : ArgsView α) (f : DcField α) (byAlias byName : Bool) :
    ValResult α (LookupKey × Option (LookupPath × α)) :=
  match f.keys.select byAlias byName with
  | .error e => .error (.internal e)
  | .ok key =>
    match view.kwargs with
    | none => .ok (key, none)
    | some kw =>
      match kw.get key with
      | .error e => .error e
      | .ok r => .ok (key, r)

/-- A field that is an `init` field, `src/validators/dataclass.rs:197-283`. -/
def DcArgs.initStep (d : DcArgs α) (view : ArgsView α) (input : α) (byAlias byName : Bool)
    (index : Nat) (f : DcField α) (acc : DAcc α) : ValResult α Unit × DAcc α :=
  match lookup view f byAlias byName with
  | .error e => (.error e, acc)
  | .ok (key, kw?) =>
    let acc :=
      match kw? with
      | some (path, _) => { acc with used := insertNew path.first acc.used }
      | none => acc
    match posValue view f index, kw? with
    | some _, some (_, v) =>
      (.ok (), { acc with errs := acc.errs ++ [.newWithLoc .multipleArgumentValues v (.s f.name)] })
    | some x, none =>
      let r := rebindExtra (fun e => { e with data := some acc.dict, fieldName := some f.name })
        (f.run x) acc.st
      let acc := { acc with st := r.2 }
      match r.1 with
      | .ok v =>
        let acc := acc.setItem f v
        (.ok (), { acc with count := acc.count + 1 })
      | .error (.lineErrors ls) =>
        (.ok (), { acc with errs := acc.errs ++ ls.map (·.withOuterLocation (.i index)) })
      | .error e => (.error e, acc)
    | none, some (path, x) =>
      let r := rebindExtra (fun e => { e with data := some acc.dict, fieldName := some f.name })
        (f.run x) acc.st
      let acc := { acc with st := r.2 }
      match r.1 with
      | .ok v =>
        let acc := acc.setItem f v
        (.ok (), { acc with count := acc.count + 1 })
      | .error (.lineErrors ls) =>
        (.ok (), { acc with errs := acc.errs ++ ls.map (path.applyErrorLoc · d.locByAlias f.name) })
      | .error e => (.error e, acc)
    | none, none =>
      let r := rebindExtra (fun e => { e with data := some acc.dict, fieldName := some f.name })
        (f.dflt (some (.s f.name))) acc.st
      let acc := { acc with st := r.2 }
      match r.1 with
      | .ok (some v) => (.ok (), acc.setItem f v)
      | .ok none =>
        (.ok (), { acc with
          errs := acc.errs ++ (key.error .missing input d.locByAlias f.name).toList })
      | .error .omitted => (.ok (), acc)
      | .error (.lineErrors ls) => (.ok (), { acc with errs := acc.errs ++ ls })
      | .error e => (.error e, acc)

/-- One iteration of the loop over fields, `src/validators/dataclass.rs:178-284`. -/
def DcArgs.step (d : DcArgs α) (view : ArgsView α) (input : α) (byAlias byName : Bool)
    (index : Nat) (f : DcField α) (acc : DAcc α) : ValResult α Unit × DAcc α :=
  if f.init then d.initStep view input byAlias byName index f acc else noInitStep f acc

/-- The loop over fields, `src/validators/dataclass.rs:178-284`. -/
def DcArgs.loop (d : DcArgs α) (view : ArgsView α) (input : α) (byAlias byName : Bool) :
    Nat → List (DcField α) → DAcc α → ValResult α Unit × DAcc α
  | _, [], acc => (.ok (), acc)
  | i, f :: fs, acc =>
    let r := d.step view input byAlias byName i f acc
    match r.1 with
    | .ok () => d.loop view input byAlias byName (i + 1) fs r.2
    | .error e => (.error e, r.2)

/-- The surplus positional arguments, `src/validators/dataclass.rs:285-297`. -/
def DcArgs.argsPart (d : DcArgs α) (view : ArgsView α) (acc : DAcc α) : DAcc α :=
  match view.args with
  | none => acc
  | some args =>
    let n := posFields d.fields
    if args.length > n then { acc with errs := acc.errs ++ unexpectedArgs n (args.drop n) }
    else acc

/-- One keyword argument of the second loop, `src/validators/dataclass.rs:302-355`. -/
def DcArgs.kwStep (d : DcArgs α) (rawKey value : α) (acc : DAcc α) :
    ValResult α Unit × DAcc α :=
  match d.keyOps.str rawKey with
  | .error (.lineErrors ls) =>
    (.ok (), { acc with errs := acc.errs ++ ls.map fun e =>
      { e.withOuterLocation (d.keyOps.loc rawKey) with type := .invalidKey } })
  | .error e => (.error e, acc)
  | .ok key =>
    if acc.used.contains key then (.ok (), acc)
    else
      match d.extra with
      | .forbid =>
        (.ok (), { acc with
          errs := acc.errs ++ [.newWithLoc .unexpectedKeywordArgument value (d.keyOps.loc rawKey)] })
      | .ignore => (.ok (), acc)
      | .allow =>
        match d.extrasV with
        | some v =>
          let r := rebindExtra (fun e => { e with data := some acc.dict }) (v value) acc.st
          let acc := { acc with st := r.2 }
          match r.1 with
          | .ok w => (.ok (), { acc with dict := acc.dict.set key w })
          | .error (.lineErrors ls) =>
            (.ok (),
              { acc with errs := acc.errs ++ ls.map (·.withOuterLocation (d.keyOps.loc rawKey)) })
          | .error e => (.error e, acc)
        | none => (.ok (), { acc with dict := acc.dict.set key value })

/-- The loop over keyword arguments, `src/validators/dataclass.rs:301-356`. -/
def DcArgs.kwLoop (d : DcArgs α) :
    List (ValResult α (α × α)) → DAcc α → ValResult α Unit × DAcc α
  | [], acc => (.ok (), acc)
  | .error e :: _, acc => (.error e, acc)
  | .ok (k, v) :: es, acc =>
    let r := d.kwStep k v acc
    match r.1 with
    | .ok () => d.kwLoop es r.2
    | .error e => (.error e, r.2)

/-- The keyword arguments that no field used, `src/validators/dataclass.rs:298-358`. -/
def DcArgs.kwPart (d : DcArgs α) (view : ArgsView α) (acc : DAcc α) :
    ValResult α Unit × DAcc α :=
  match view.kwargs with
  | none => (.ok (), acc)
  | some kw => if kw.len ≠ acc.used.length then d.kwLoop kw.entries acc else (.ok (), acc)

/-- `validate` after `validate_dataclass_args`, `src/validators/dataclass.rs:151-370`. -/
def DcArgs.run (d : DcArgs α) (view : ArgsView α) (input : α) (st : VState α) :
    ValResult α (DcOut α) × VState α :=
  let r1 := d.loop view input (st.validateByAliasOr d.byAlias) (st.validateByNameOr d.byName) 0
    d.fields ⟨[], [], [], [], 0, st⟩
  match r1.1 with
  | .error e => (.error e, r1.2.st)
  | .ok () =>
    let r2 := d.kwPart view (d.argsPart view r1.2)
    match r2.1 with
    | .error e => (.error e, r2.2.st)
    | .ok () =>
      let st := r2.2.st.addFieldsSet r2.2.count
      if r2.2.errs.isEmpty then
        (.ok ⟨r2.2.dict, if d.collectInitOnly then some r2.2.initOnly else none⟩, st)
      else (.error (.lineErrors r2.2.errs), st)

/-- `DataclassArgsValidator::validate`, `src/validators/dataclass.rs:140-371`. -/
def DcArgs.validate (d : DcArgs α) : Validator α (DcOut α) := fun input st =>
  let st := { st with allowPartial := .ofBool false }
  match d.asArgs input with
  | .error e => (.error e, st)
  | .ok view => d.run view input st

/-- `DataclassArgsValidator::validate_assignment`, `src/validators/dataclass.rs:373-443`: the dict
updated with the validated value. -/
def DcArgs.validateAssignment (d : DcArgs α) (dict : Dict α) (name : String) (value : α)
    (st : VState α) : ValResult α (Dict α) × VState α :=
  match d.fields.find? (fun f => f.name = name) with
  | some f =>
    if f.frozen then (.error (.newWithLoc .frozenField value (.s f.name)), st)
    else
      let r := rebindExtra (fun x => { x with data := some (dict.del name), fieldName := some f.name })
        (f.run value) st
      match r.1 with
      | .ok v => (.ok (dict.set name v), r.2)
      | .error (.lineErrors ls) =>
        (.error (.lineErrors (ls.map (·.withOuterLocation (.s name)))), r.2)
      | .error e => (.error e, r.2)
  | none =>
    match d.extra with
    | .allow => (.ok (dict.set name value), st)
    | _ => (.error (.newWithLoc (.noSuchAttribute name) value (.s name)), st)

/-! ### Instances -/

/-- `Revalidate`, `src/validators/model.rs:24-51`. -/
inductive Revalidate where
  | always
  | never
  | subclassInstances
  deriving DecidableEq, Repr

/-- `DataclassValidator`, `src/validators/dataclass.rs:451-462`, over the inner validator of
`dataclass-args` (function validators in between are not modelled).

* `fields` are the names that `dataclass_to_dict` reads;
* `slots` is `some names` for a class with `__slots__`, which then are `names`;
* `classAttr` are the attributes of the class, which `getattr` falls back to;
* `postInit` is `__post_init__` if the class has one: what the method called with these arguments
  (`none`: without arguments) makes of the attributes of the instance, and the exception it raises
  already converted by `convert_err`. -/
structure Dc (α : Type) where
  args : DcArgs α
  fields : List String
  strict : Bool
  revalidate : Revalidate
  frozen : Bool
  slots : Option (List String)
  classAttr : String → Option α
  postInit : Option (Option (List α) → Dict α → ValResult α Unit × Dict α)
  /-- `get_name` in the `dataclass_exact_type` error -/
  exactType : ErrType

/-- `getattr(dc, name)`, used in `src/validators/dataclass.rs:646`. -/
def Dc.getAttr (c : Dc α) (attrs : Dict α) (name : String) : Option α :=
  (attrs.get name).or (c.classAttr name)

/-- The loop of `dataclass_to_dict`, `src/validators/dataclass.rs:645-647`. -/
def Dc.readFields (c : Dc α) (attrs : Dict α) : List String → Dict α → Except PyErr (Dict α)
  | [], dict => .ok dict
  | n :: ns, dict =>
    match c.getAttr attrs n with
    | none => .error ⟨"AttributeError"⟩
    | some v => c.readFields attrs ns (dict.set n v)

/-- `dataclass_to_dict`, `src/validators/dataclass.rs:641-649`. -/
def Dc.toDict (c : Dc α) (attrs : Dict α) : Except PyErr (Dict α) := c.readFields attrs c.fields []

/-- `force_setattr` of one attribute of a class with slots, `src/validators/dataclass.rs:662`,
`src/validators/model.rs:377-394`. -/
def setSlot (names : List String) (name : String) (v : α) (attrs : Dict α) :
    Except PyErr Unit × Dict α :=
  if name ∈ names then (.ok (), attrs.set name v) else (.error ⟨"AttributeError"⟩, attrs)

/-- The loop over the dict of attributes, `src/validators/dataclass.rs:661-663`. -/
def setSlots (names : List String) : Dict α → Dict α → Except PyErr Unit × Dict α
  | [], attrs => (.ok (), attrs)
  | (k, v) :: rest, attrs =>
    let r := setSlot names k v attrs
    match r.1 with
    | .ok () => setSlots names rest r.2
    | .error e => (.error e, r.2)

/-- `set_dict_call`, `src/validators/dataclass.rs:651-679`: what becomes of the attributes of the
instance. -/
def Dc.setDictCall (c : Dc α) (attrs : Dict α) (out : DcOut α) : ValResult α Unit × Dict α :=
  let r : Except PyErr Unit × Dict α := match c.slots with
    | some names => setSlots names out.dict attrs
    | none => (.ok (), out.dict)
  match r.1 with
  | .error e => (.error (.internal e), r.2)
  | .ok () =>
    match c.postInit with
    | none => (.ok (), r.2)
    | some f => f out.initOnly r.2

/-- `validate_init`, `src/validators/dataclass.rs:624-639`: what becomes of the attributes of
`self_instance`. -/
def Dc.validateInit (c : Dc α) (attrs : Dict α) (input : α) (st : VState α) :
    ValResult α Unit × Dict α × VState α :=
  let r := c.args.validate input st
  match r.1 with
  | .error e => (.error e, attrs, r.2)
  | .ok out =>
    let r2 := c.setDictCall attrs out
    (r2.1, r2.2, r.2)

/-- What the code asks of the input, `src/validators/dataclass.rs:538-557`: whether it is a Python
instance of the class (exactly, or of a subclass), or of the class's generic origin only, and its
attributes. -/
inductive Source (α : Type) where
  | exact (attrs : Dict α)
  | subclass (attrs : Dict α)
  | genericOrigin (attrs : Dict α)
  | other

/-- `should_revalidate`, `src/validators/model.rs:44-50`, on an instance of the class. -/
def Revalidate.should (r : Revalidate) (exactInstance : Bool) : Bool :=
  match r with
  | .always => true
  | .never => false
  | .subclassInstances => !exactInstance

/-- What a dataclass validator returns: the input itself or a new instance of the class. -/
inductive Made (α : Type) where
  | same
  | fresh (attrs : Dict α)
  deriving DecidableEq, Repr

/-- The construction of a new instance from a validated dict, `src/validators/dataclass.rs:560-562`
and `:577-579`: `create_class` makes an instance without attributes. -/
def Dc.make (c : Dc α) (out : DcOut α) : ValResult α (Made α) :=
  let r := c.setDictCall [] out
  match r.1 with
  | .error e => .error e
  | .ok () => .ok (.fresh r.2)

/-- The revalidation of an instance, `src/validators/dataclass.rs:558-562`.  `mkDict` makes the
object of a dict. -/
def Dc.revalidateAttrs (c : Dc α) (mkDict : Dict α → α) (attrs : Dict α) (st : VState α) :
    ValResult α (Made α) × VState α :=
  match c.toDict attrs with
  | .error e => (.error (.internal e), st)
  | .ok dict =>
    let r := c.args.validate (mkDict dict) st
    match r.1 with
    | .error e => (.error e, r.2)
    | .ok out => (c.make out, r.2)

/-- `DataclassValidator::validate` without `self_instance`, `src/validators/dataclass.rs:534-581`.
`python` says whether the input type is Python. -/
def Dc.validate (c : Dc α) (mkDict : Dict α → α) (python : Bool) (source : Source α) (input : α)
    (st : VState α) : ValResult α (Made α) × VState α :=
  match source with
  | .exact attrs =>
    if c.revalidate.should true then c.revalidateAttrs mkDict attrs st else (.ok .same, st)
  | .subclass attrs =>
    if c.revalidate.should false then c.revalidateAttrs mkDict attrs st else (.ok .same, st)
  | .genericOrigin attrs => c.revalidateAttrs mkDict attrs st
  | .other =>
    if st.strictOr c.strict && python then (.error (.new c.exactType input), st)
    else
      let r := c.args.validate input st
      match r.1 with
      | .error e => (.error e, r.2)
      | .ok out => (c.make out, r.2.floorExactness .strict)

/-- `DataclassValidator::validate_assignment`, `src/validators/dataclass.rs:583-615`: what becomes
of the attributes of the instance.  The `KeyError` of `:608` cannot happen. -/
def Dc.validateAssignment (c : Dc α) (attrs : Dict α) (name : String) (value : α) (st : VState α) :
    ValResult α Unit × Dict α × VState α :=
  if c.frozen then (.error (.new .frozenInstance value), attrs, st)
  else
    match c.toDict attrs with
    | .error e => (.error (.internal e), attrs, st)
    | .ok newDict =>
      let r := c.args.validateAssignment (newDict.set name value) name value st
      match r.1 with
      | .error e => (.error e, attrs, r.2)
      | .ok dict =>
        match c.slots with
        | none => (.ok (), dict, r.2)
        | some names =>
          match dict.get name with
          | none => (.error (.internal ⟨"KeyError"⟩), attrs, r.2)
          | some v =>
            let s := setSlot names name v attrs
            match s.1 with
            | .ok () => (.ok (), s.2, r.2)
            | .error e => (.error (.internal e), s.2, r.2)

end PC.Dc
