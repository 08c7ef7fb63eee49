import Verif.Model.Combinators
import Verif.Model.Collections
import Verif.Model.Union
import Verif.Model.Fields
import Verif.Model.RecursionGuard
import Verif.Model.ModelClass

/-
A language of nested, recursive schemas, and the validator each schema stands for: the combinators of the other
modules put together the way `build_validator` (`src/validators/mod.rs:558-660`) does, with definition references
that go through the recursion guard.

How inputs are seen (`World`), the checks of scalar validators (`Leaf`) and Python functions are parameters.
-/

namespace PC.Engine
open PC.Comb PC.Coll PC.Union PC.Fields PC.Lookup
variable {α : Type}

/-- What validators ask of an input and how outputs are built: the trait `Input`, `src/input/input_abstract.rs:58-182`.
`identity` is `input.as_python().map(py_identity)`, `src/validators/definitions.rs:83,129-131`: the address of a Python
object, `none` for JSON data.  Of classes, known by number, `source` says what the input is to a class
(`src/validators/model.rs:135-151`), `mkModel` is the object an instance is; `asFields` is `validate_model_fields`
(`src/input/input_python.rs:392-424`, `src/input/input_abstract.rs:135-137`). -/
structure World (α : Type) where
  identity : α → Option Nat
  isNone : α → Bool
  noneV : α
  asList : Bool → α → ValResult α (Seq α × Exactness)
  asSet : Bool → α → ValResult α (Seq α × Exactness)
  asTuple : Bool → α → ValResult α (Seq α × Exactness)
  asDict : Bool → α → ValResult α (List (ValResult α (α × α)))
  view : Bool → α → ValResult α (DictView α)
  hashing : Hashing α
  keyLoc : α → LocItem
  keyOps : KeyOps α
  mkList : List α → α
  mkSet : List α → α
  mkTuple : List α → α
  mkDict : List (α × α) → α
  mkTyped : Dict α → α
  asFields : Bool → Bool → α → ValResult α (DictView α) := fun strict _ => view strict
  source : Nat → α → Cls.ModelSource α := fun _ _ => .other
  isUndefined : α → Bool := fun _ => false
  mkModel : Nat → Instance α → α := fun _ i => mkTyped i.dict

/-- A scalar validator: what it makes of an input by strictness.  `src/validators/int.rs:64-73`,
`src/validators/bool.rs:33-44`, `src/validators/string.rs:45-59`, `src/validators/any.rs:30-39`,
`src/validators/none.rs:27-37`; the checks themselves are modelled in `Inputs.lean`, `Numbers.lean`, .. -/
structure Leaf (α : Type) where
  strict : Bool
  check : Bool → α → Except ErrType (α × Exactness)

/-- The `validate` of a scalar validator (as cited for `Leaf`): the check, and `ValidationMatch::unpack`,
`src/input/return_enums.rs:53-56`. -/
def Leaf.validate (l : Leaf α) : Validator α α := fun input st =>
  match l.check (st.strictOr l.strict) input with
  | .error t => (.error (.new t input), st)
  | .ok (v, ex) => (.ok v, st.floorExactness ex)

/-- The settings of a typed dict, `src/validators/typed_dict.rs:31-41`. -/
structure TypedCfg where
  extra : ExtraBehavior
  strict : Bool
  locByAlias : Bool
  byAlias : Option Bool
  byName : Option Bool

/-- The settings of a model class and its fields, `src/validators/model.rs:53-65`,
`src/validators/model_fields.rs:31-43`. -/
structure ModelCfg extends TypedCfg where
  cls : Nat
  revalidate : Dc.Revalidate
  fromAttributes : Bool

/-- The settings of a tagged union, `src/validators/union.rs:283-291`: the discriminator is a lookup key; `index` finds
the choice of a tag (`LiteralLookup::validate`), with the location item for its errors. -/
structure TagCfg (α : Type) where
  key : LookupKey
  fromAttributes : Bool
  index : α → Option (LocItem × Nat)
  tagString : α → String
  customError : Option ErrType
  tagsRepr : String
  discriminatorRepr : String

mutual
/-- The schemas modelled, by the validators built from them: scalar validators; nullable
(`src/validators/nullable.rs`), list, set / frozenset, dict, tuple, typed-dict, union in both modes, tagged-union, model
(with model-fields, without `custom_init` and `post_init`, extra items not validated), root model, function-before,
function-after, function-wrap, custom-error, lax-or-strict and definition-ref validators. -/
inductive Schema (α : Type) where
  | leaf (l : Leaf α)
  | nullable (s : Schema α)
  | list (strict : Bool) (minLength maxLength : Option Nat) (failFast : Bool) (item : Schema α)
  | set (fieldType : String) (strict : Bool) (minLength maxLength : Option Nat) (failFast : Bool) (item : Schema α)
  | dict (strict : Bool) (minLength maxLength : Option Nat) (key value : Schema α)
  | tuple (strict : Bool) (minLength maxLength : Option Nat) (failFast : Bool) (head : Schemas α)
  | tupleVar (strict : Bool) (minLength maxLength : Option Nat) (failFast : Bool) (head : Schemas α)
      (variadic : Schema α) (tail : Schemas α)
  | typedDict (cfg : TypedCfg) (fields : FieldSchemas α)
  | typedDictExtras (cfg : TypedCfg) (fields : FieldSchemas α) (extras : Schema α)
  | union (leftToRight : Bool) (customError : Option ErrType) (members : Members α)
  | tagged (cfg : TagCfg α) (choices : Schemas α)
  | model (cfg : ModelCfg) (fields : FieldSchemas α)
  | rootModel (cls : Nat) (revalidate : Dc.Revalidate) (root : Schema α)
  | before (f : PyFunc α) (s : Schema α)
  | after (f : PyFunc α) (s : Schema α)
  | wrap (prog : Extra α → α → WrapProg α) (s : Schema α)
  | customError (t : ErrType) (s : Schema α)
  | laxOrStrict (strict : Bool) (lax strictS : Schema α)
  | ref (name : Nat)
/-- A list of schemas. -/
inductive Schemas (α : Type) where
  | nil
  | cons (s : Schema α) (rest : Schemas α)
/-- The members of a union, with `get_name()` and label, `src/validators/union.rs:60-73`. -/
inductive Members (α : Type) where
  | nil
  | cons (name : String) (label : Option String) (s : Schema α) (rest : Members α)
/-- The fields of a typed dict, `src/validators/typed_dict.rs:20-27`.  `dflt` is the default value of a field wrapped in
a with-default validator (not validated, not computed, `on_error='raise'`: `src/validators/with_default.rs:154-208`). -/
inductive FieldSchemas (α : Type) where
  | nil
  | cons (name : String) (keys : KeyCollection) (required : Bool) (dflt : Option α) (s : Schema α)
      (rest : FieldSchemas α)
end

/-- A run: how inputs are seen, the platform's recursion limit, the definitions, and two results that stand for no
behaviour of the program: `outOfFuel` (the run goes on) and `panic`.  Theorems show when neither is ever used. -/
structure Env (α : Type) where
  world : World α
  platform : Guard.Platform
  defs : Nat → Schema α
  outOfFuel : Nat → Validator α α
  panic : ValResult α α

/-- The typed-dict validator of a schema, `src/validators/typed_dict.rs:43-144`. -/
def typedDictV (W : World α) (cfg : TypedCfg) (fields : List (Field α)) (extras : Option (Validator α α)) :
    TypedDict α :=
  { fields := fields, extra := cfg.extra, extrasV := extras, strict := cfg.strict, locByAlias := cfg.locByAlias,
    byAlias := cfg.byAlias, byName := cfg.byName, asDict := W.view, keyOps := W.keyOps, build := W.mkTyped }

/-- The model-fields validator of a schema, `src/validators/model_fields.rs:31-43`. -/
def modelFieldsV (W : World α) (cfg : ModelCfg) (fields : List (Field α)) : ModelFields α :=
  { fields := fields, extra := cfg.extra, extrasV := none, extrasKeysV := none, strict := cfg.strict,
    fromAttributes := cfg.fromAttributes, locByAlias := cfg.locByAlias, byAlias := cfg.byAlias, byName := cfg.byName,
    asFields := W.asFields, keyOps := W.keyOps }

/-- The model validator around it, `src/validators/model.rs:53-65`. -/
def modelV (W : World α) (cfg : ModelCfg) (fields : List (Field α)) : Cls.ModelV α :=
  { inner := (modelFieldsV W cfg fields).validate, root := none, revalidate := cfg.revalidate, customInit := none,
    postInit := none, mkDict := W.mkTyped, isUndefined := W.isUndefined }

/-- The validator of a root model, `src/validators/model.rs:53-65`; `inner` is not used for root models. -/
def rootModelV (W : World α) (revalidate : Dc.Revalidate) (root : Validator α α) : Cls.ModelV α :=
  { inner := fun _ st => (.error (.internal ⟨""⟩), st), root := some root, revalidate := revalidate, customInit := none,
    postInit := none, mkDict := W.mkTyped, isUndefined := W.isUndefined }

/-- `ModelValidator::validate`, `src/validators/model.rs:118-182`, with what it returns as an object. -/
def modelRun (W : World α) (cls : Nat) (m : Cls.ModelV α) : Validator α α := fun input st =>
  let r := m.validate (W.source cls input) input st
  match r.1 with
  | .error e => (.error e, r.2)
  | .ok .same => (.ok input, r.2)
  | .ok (.fresh i) => (.ok (W.mkModel cls i), r.2)
  | .ok (.called x) => (.ok x, r.2)

/-- The lookup of the tag, `src/validators/union.rs:354-362`. -/
def findTag (W : World α) (key : LookupKey) (strict fromAttributes : Bool) (input : α) : ValResult α (Option α) :=
  match W.asFields strict fromAttributes input with
  | .error e => .error e
  | .ok view =>
    match view.get key with
    | .error e => .error e
    | .ok o => .ok (o.map Prod.snd)

/-- The tagged-union validator of a schema, `src/validators/union.rs:283-291`. -/
def taggedV (W : World α) (cfg : TagCfg α) (choices : List (Validator α α)) : Tagged α :=
  { discriminator := .lookupKey (findTag W cfg.key), fromAttributes := cfg.fromAttributes,
    lookup := fun tag => (cfg.index tag).bind fun x => (choices[x.2]?).map fun v => (x.1, v),
    tagString := cfg.tagString, customError := cfg.customError, tagsRepr := cfg.tagsRepr,
    discriminatorRepr := cfg.discriminatorRepr }

/-- `TupleValidator::validate`, `src/validators/tuple.rs:270-313`, with a panic as a result. -/
def tupleRun (panic : ValResult α α) (t : TupleV α) : Validator α α := fun input st =>
  (t.validate input st).getD (panic, st)

/-- An item of a tuple schema; items with defaults are not modelled, so `default_value` is `None`
(`src/validators/mod.rs:853-860`). -/
def titem (v : Validator α α) : TItem α := ⟨v, fun _ st => (.ok none, st)⟩

/-- `validate` of a with-default validator with `on_error='raise'`, `src/validators/with_default.rs:154-175` (the input is
not `PydanticUndefined`); without a default it is the inner validator. -/
def withDefault (dflt : Option α) (v : Validator α α) : Validator α α := fun input st =>
  let r := v input st
  match r.1, dflt with
  | .error .useDefault, some d => (.ok d, r.2)
  | _, _ => r

/-- A field of a typed dict from its schema, `src/validators/typed_dict.rs:82-130`; `default_value` gives the default,
`src/validators/with_default.rs:177-208`. -/
def field (name : String) (keys : KeyCollection) (required : Bool) (dflt : Option α) (v : Validator α α) : Field α :=
  { name := name, keys := keys, run := withDefault dflt v, dflt := fun _ st => (.ok dflt, st), frozen := false, required := required }

mutual
/-- The validator of a schema (`build_validator`, `src/validators/mod.rs:558-660`); `refs` is what definition
references stand for. -/
def build (W : World α) (panic : ValResult α α) (refs : Nat → Validator α α) : Schema α → Validator α α
  | .leaf l => l.validate
  | .nullable s => nullable W.isNone W.noneV (build W panic refs s)
  | .list strict minLength maxLength failFast item =>
    ListV.validate
      { strict := strict, item := some (build W panic refs item), minLength := minLength, maxLength := maxLength,
        failFast := failFast, asList := W.asList, build := W.mkList }
  | .set fieldType strict minLength maxLength failFast item =>
    SetV.validate
      { strict := strict, item := build W panic refs item, minLength := minLength, maxLength := maxLength,
        failFast := failFast, fieldType := fieldType, hashing := W.hashing, asSet := W.asSet, build := W.mkSet }
  | .dict strict minLength maxLength key value =>
    DictV.validate
      { strict := strict, key := build W panic refs key, value := build W panic refs value, minLength := minLength,
        maxLength := maxLength, hashing := W.hashing, keyLoc := W.keyLoc, asDict := W.asDict, build := W.mkDict }
  | .tuple strict minLength maxLength failFast head =>
    tupleRun panic
      { strict := strict, head := (buildAll W panic refs head).map titem, variadic := none, minLength := minLength,
        maxLength := maxLength, failFast := failFast, asTuple := W.asTuple, build := W.mkTuple }
  | .tupleVar strict minLength maxLength failFast head variadic tail =>
    tupleRun panic
      { strict := strict, head := (buildAll W panic refs head).map titem,
        variadic := some (titem (build W panic refs variadic), (buildAll W panic refs tail).map titem),
        minLength := minLength, maxLength := maxLength, failFast := failFast, asTuple := W.asTuple,
        build := W.mkTuple }
  | .typedDict cfg fields => (typedDictV W cfg (buildFields W panic refs fields) none).validate
  | .typedDictExtras cfg fields extras =>
    (typedDictV W cfg (buildFields W panic refs fields) (some (build W panic refs extras))).validate
  | .union leftToRight ce members =>
    if leftToRight then validateLeftToRight (buildMembers W panic refs members) ce
    else validateSmart (buildMembers W panic refs members) ce
  | .tagged cfg choices => (taggedV W cfg (buildAll W panic refs choices)).validate
  | .model cfg fields => modelRun W cfg.cls (modelV W cfg (buildFields W panic refs fields))
  | .rootModel cls revalidate root => modelRun W cls (rootModelV W revalidate (build W panic refs root))
  | .before f s => functionBefore f (build W panic refs s)
  | .after f s => functionAfter f (build W panic refs s)
  | .wrap prog s => functionWrap prog (build W panic refs s)
  | .customError t s => customError t (build W panic refs s)
  | .laxOrStrict strict lax strictS => laxOrStrict strict (build W panic refs lax) (build W panic refs strictS)
  | .ref name => refs name
/-- The validators of a list of schemas. -/
def buildAll (W : World α) (panic : ValResult α α) (refs : Nat → Validator α α) :
    Schemas α → List (Validator α α)
  | .nil => []
  | .cons s rest => build W panic refs s :: buildAll W panic refs rest
/-- The members of a union, `src/validators/union.rs:60-73`. -/
def buildMembers (W : World α) (panic : ValResult α α) (refs : Nat → Validator α α) :
    Members α → List (Choice α)
  | .nil => []
  | .cons name label s rest => ⟨name, label, build W panic refs s⟩ :: buildMembers W panic refs rest
/-- The fields of a typed dict, `src/validators/typed_dict.rs:82-130`. -/
def buildFields (W : World α) (panic : ValResult α α) (refs : Nat → Validator α α) :
    FieldSchemas α → List (Field α)
  | .nil => []
  | .cons name keys required dflt s rest =>
    field name keys required dflt (build W panic refs s) :: buildFields W panic refs rest
end

/-- `DefinitionRefValidator::validate`, `src/validators/definitions.rs:72-93`, with the guard's `Drop`
(`src/recursion_guard.rs:51-58`) after the inner validation. -/
def definitionRef (E : Env α) (name : Nat) (inner : Validator α α) : Validator α α := fun input st =>
  let st : VState α := { st with allowPartial := .ofBool false }
  match E.world.identity input with
  | none => inner input st
  | some id =>
    match Guard.enter E.platform st.guard (id, name) with
    | (.error _, g) => (.error (.new .recursionLoop input), { st with guard := g })
    | (.ok (), g) =>
      let r := inner input { st with guard := g }
      match Guard.leave r.2.guard (id, name) with
      | some g => (r.1, { r.2 with guard := g })
      | none => (E.panic, r.2)

/-- What a definition reference does when references may be followed `n` deep: the recursion of the program, cut off
after `n` references inside each other. -/
def refs (E : Env α) : Nat → Nat → Validator α α
  | 0, name => E.outOfFuel name
  | n + 1, name => definitionRef E name (build E.world E.panic (refs E n) (E.defs name))

/-- The validator of a schema with definitions, references followed at most `n` deep. -/
def run (E : Env α) (n : Nat) (s : Schema α) : Validator α α := build E.world E.panic (refs E n) s

end PC.Engine
