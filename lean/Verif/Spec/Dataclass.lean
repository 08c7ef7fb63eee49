import Verif.Model.Dataclass
import Verif.Spec.Arguments
import Verif.Spec.Fields

/-
What the standard library makes of a dataclass: the signature of its `__init__`, and what a call
of it gives to each field.
-/

namespace PC.Dc
open PC.Lookup PC.Fields PC.Args
variable {α : Type}

/-- The argument that the call `f(*args, **kw)` gives to the parameter called `name`. -/
def argument (s : Sig) (args : List α) (kw : Dict α) (name : String) : Option α :=
  (s.params.idxOf? name).bind fun i => s.bound args kw i

/-- The signature of the `__init__` that the standard library makes (`dataclasses._init_fn`): the
`init` fields that are not keyword-only, then the keyword-only ones.  With `extra` other than
`forbid`, any further keyword argument is taken too. -/
def DcArgs.sig (d : DcArgs α) : Sig where
  posOnly := []
  posOrKw := (d.fields.filter fun f => f.init && !f.kwOnly).map DcField.name
  kwOnly := (d.fields.filter fun f => f.init && f.kwOnly).map DcField.name
  star := false
  starStar := decide (d.extra ≠ .forbid)

/-- The fields as pydantic lists them (keyword-only fields last), with distinct names and without
aliases, and every field with a positional place taking an argument. -/
structure DcArgs.Ordered (d : DcArgs α) : Prop where
  order : ∃ ps ks, d.fields = ps ++ ks ∧ (∀ f ∈ ps, f.init = true ∧ f.kwOnly = false) ∧
    ∀ f ∈ ks, f.kwOnly = true
  distinct : (d.fields.map DcField.name).Nodup
  keys : ∀ f ∈ d.fields, f.keys = ⟨.simple (.ofStr f.name), none, none⟩

/-- The call: `view` presents the positional arguments `args` and the keyword arguments `kw`,
whose names are distinct. -/
structure DcArgs.Call (d : DcArgs α) (view : ArgsView α) (args : List α) (kw : Dict α) : Prop where
  args : view.args.getD [] = args
  distinct : (kw.map Prod.fst).Nodup
  kwargs : match view.kwargs with
    | none => kw = []
    | some k => k.len = kw.length ∧
      (∀ name, k.get (.simple (.ofStr name)) =
        .ok ((kw.get name).map fun v => (.ofStr name, v))) ∧
      ∃ mk : String → α, k.entries = kw.map (fun kv => .ok (mk kv.1, kv.2)) ∧
        ∀ n, d.keyOps.str (mk n) = .ok n ∧ d.keyOps.loc (mk n) = .s n

/-- The value of a field given the argument for it: the validated argument; without an argument
the default; nothing if the default asks to be omitted, or if there is no default and the field is
no `init` field.  `data` are the attributes that the validator is shown. -/
def FieldValue (f : DcField α) (data : Dict α) (given : Option α) (value : Option α) : Prop :=
  match given with
  | some x => ∃ st w, st.extra.fieldName = some f.name ∧ st.extra.data = some data ∧
      (f.run x st).1 = .ok w ∧ value = some w
  | none => ∃ st, st.extra.data = some data ∧
      (((f.dflt (some (.s f.name)) st).1 = .ok value ∧ (value = none → f.init = false)) ∨
        ((f.dflt (some (.s f.name)) st).1 = .error .omitted ∧ value = none))

/-- The attributes that fields with these values make: init-only fields make none. -/
def attributes (rows : List (DcField α × Option α)) : Dict α :=
  rows.filterMap fun r => if r.1.initOnly then none else r.2.map fun v => (r.1.name, v)

/-- The values for `__post_init__`. -/
def initOnlyValues (rows : List (DcField α × Option α)) : List α :=
  rows.filterMap fun r => if r.1.initOnly then r.2 else none

/-- What becomes of keyword arguments that are no parameters. -/
def DcArgs.ExtraValues (d : DcArgs α) (kw xs : Dict α) : Prop :=
  match d.extra with
  | .forbid => kw = [] ∧ xs = []
  | .ignore => xs = []
  | .allow => match d.extrasV with
    | none => xs = kw
    | some v => EachKwValid (.uniform (some v)) kw xs

/-- Some default of the field exists (or is omitted). -/
def DcField.HasDefault (f : DcField α) : Prop :=
  ∃ st, (∃ w, (f.dflt (some (.s f.name)) st).1 = .ok (some w)) ∨
    (f.dflt (some (.s f.name)) st).1 = .error .omitted

/-- No validator fails without saying why. -/
def DcArgs.Explains (d : DcArgs α) : Prop :=
  (∀ f ∈ d.fields, ∀ x st, (f.run x st).1 ≠ .error (.lineErrors [])) ∧
  (∀ f ∈ d.fields, ∀ loc st, (f.dflt loc st).1 ≠ .error (.lineErrors [])) ∧
  (∀ v, d.extrasV = some v → ∀ x st, (v x st).1 ≠ .error (.lineErrors []))

/-- The call validates: every argument, every default that is needed and every extra item does,
whatever was validated before. -/
structure DcArgs.AllValid (d : DcArgs α) (args : List α) (kw : Dict α) : Prop where
  given : ∀ f ∈ d.fields, ∀ x, argument d.sig args kw f.name = some x →
    ∀ st, ∃ w, (f.run x st).1 = .ok w
  defaults : ∀ f ∈ d.fields, argument d.sig args kw f.name = none → ∀ st,
    (∃ w, (f.dflt (some (.s f.name)) st).1 = .ok (some w)) ∨
    (f.dflt (some (.s f.name)) st).1 = .error .omitted ∨
    (f.init = false ∧ (f.dflt (some (.s f.name)) st).1 = .ok none)
  extras : ∀ v, d.extra = .allow → d.extrasV = some v → ∀ k x, (k, x) ∈ d.sig.surplusKw kw →
    ∀ st, ∃ w, (v x st).1 = .ok w

/-- `e` is an error of a validator for the value `x`, put under `loc`. -/
def Under (v : Validator α α) (x : α) (loc : LocItem) (e : LineError α) : Prop :=
  ∃ st ls e0, (v x st).1 = .error (.lineErrors ls) ∧ e0 ∈ ls ∧ e = e0.withOuterLocation loc

/-- Where the errors for the argument of a field point: at the index of a positional argument, at
the name of a keyword argument. -/
def DcArgs.place (d : DcArgs α) (args : List α) (name : String) : LocItem :=
  match d.sig.posOrKw.idxOf? name with
  | some i => if i < args.length then .i i else .s name
  | none => .s name

/-- The reasons to report the error `e`. -/
inductive DcArgs.Reason (d : DcArgs α) (input : α) (args : List α) (kw : Dict α) :
    LineError α → Prop
  /-- one positional argument too many -/
  | surplus (i : Nat) (x : α) : d.sig.posOrKw.length ≤ i → args[i]? = some x →
      d.Reason input args kw (.newWithLoc .unexpectedPositionalArgument x (.i i))
  /-- an unknown keyword argument -/
  | unknown (k : String) (x : α) : d.extra = .forbid → (k, x) ∈ d.sig.surplusKw kw →
      d.Reason input args kw (.newWithLoc .unexpectedKeywordArgument x (.s k))
  /-- two arguments for one parameter -/
  | twice (i : Nat) (k : String) (x : α) : d.sig.Twice args kw i k x →
      d.Reason input args kw (.newWithLoc .multipleArgumentValues x (.s k))
  /-- no argument and no default -/
  | missing (f : DcField α) : f ∈ d.fields → f.init = true →
      argument d.sig args kw f.name = none →
      (∃ st, (f.dflt (some (.s f.name)) st).1 = .ok none) →
      d.Reason input args kw (.newWithLoc .missing input (.s f.name))
  /-- the argument is invalid -/
  | invalid (f : DcField α) (x : α) (e : LineError α) : f ∈ d.fields →
      argument d.sig args kw f.name = some x → Under f.run x (d.place args f.name) e →
      d.Reason input args kw e
  /-- the default is invalid -/
  | badDefault (f : DcField α) (e : LineError α) : f ∈ d.fields →
      argument d.sig args kw f.name = none →
      (∃ st ls, (f.dflt (some (.s f.name)) st).1 = .error (.lineErrors ls) ∧ e ∈ ls) →
      d.Reason input args kw e
  /-- an extra item is invalid -/
  | invalidExtra (v : Validator α α) (k : String) (x : α) (e : LineError α) :
      d.extra = .allow → d.extrasV = some v → (k, x) ∈ d.sig.surplusKw kw →
      Under v x (.s k) e → d.Reason input args kw e

/-- Something ends validation at once: a validator raises. -/
inductive DcArgs.Raises (d : DcArgs α) (args : List α) (kw : Dict α) : ValError α → Prop
  | run (f : DcField α) (x : α) (st : VState α) (e : ValError α) : f ∈ d.fields →
      argument d.sig args kw f.name = some x → (f.run x st).1 = .error e →
      (∀ ls, e ≠ .lineErrors ls) → d.Raises args kw e
  | dflt (f : DcField α) (st : VState α) (e : ValError α) : f ∈ d.fields →
      argument d.sig args kw f.name = none → (f.dflt (some (.s f.name)) st).1 = .error e →
      (∀ ls, e ≠ .lineErrors ls) → e ≠ .omitted → d.Raises args kw e
  | extra (v : Validator α α) (k : String) (x : α) (st : VState α) (e : ValError α) :
      d.extra = .allow → d.extrasV = some v → (k, x) ∈ d.sig.surplusKw kw →
      (v x st).1 = .error e → (∀ ls, e ≠ .lineErrors ls) → d.Raises args kw e

/-! ### Instances -/

/-- What validators are shown of an instance while one of its attributes is set: the other
fields. -/
def Dc.Others (c : Dc α) (attrs : Dict α) (name : String) (data : Dict α) : Prop :=
  ∀ k, data.get k = if k = name ∨ k ∉ c.fields then none else c.getAttr attrs k

/-- The attributes that an instance of the class has once those in `old` are replaced by `new`: a
class with slots keeps the old ones that are not among the new. -/
def Dc.Replaced (c : Dc α) (old new attrs : Dict α) : Prop :=
  match c.slots with
  | none => attrs = new
  | some names => (∀ k ∈ new.map Prod.fst, k ∈ names) ∧
      ∀ k, attrs.get k = ((dictOf new).get k).or (old.get k)

/-- `__post_init__`, if there is one, is called once, on the attributes `before`, with the init-only
values, succeeds and leaves the attributes `after`. -/
def Dc.PostInit (c : Dc α) (initOnly : Option (List α)) (before after : Dict α) : Prop :=
  match c.postInit with
  | none => after = before
  | some f => f initOnly before = (.ok (), after)

end PC.Dc
