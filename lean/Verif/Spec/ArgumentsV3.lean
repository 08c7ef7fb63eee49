import Verif.Model.ArgumentsV3
import Verif.Spec.Arguments

/-
What an `arguments-v3` schema is to do: accept the parameter lists of Python's grammar, and bind a
call to them whether it is spelled as a mapping or as an `ArgsKwargs`.
-/

namespace PC.ArgsV3
open PC.Lookup PC.Fields
open PC.Args (Sig EachValid ArgsView Arguments)
variable {α : Type}

/-! ### Python's grammar of parameters -/

/-- `def f(positional-only, /, positional-or-keyword, *args, keyword-only, **kwargs)`. -/
def Mode.place : Mode → Nat
  | .positionalOnly => 0
  | .positionalOrKeyword => 1
  | .varArgs => 2
  | .keywordOnly => 3
  | .varKwUniform | .varKwUnpacked => 4

/-- Python allows the parameter `d` after the parameters `pre`. -/
structure MayFollow (pre : List Decl) (d : Decl) : Prop where
  /-- no two parameters of one name -/
  fresh : ∀ c ∈ pre, c.name ≠ d.name
  /-- the kinds come in their order, and there is one `*args` and one `**kwargs` at most -/
  order : ∀ c ∈ pre, c.mode.place < d.mode.place ∨
    (c.mode.place = d.mode.place ∧ d.mode.variadic = false)
  /-- "non-default argument follows default argument" -/
  defaults : d.mode.positional = true → d.hasDefault = false → ∀ c ∈ pre, c.hasDefault = false

/-- The parameter list is one Python allows. -/
def PythonParams (ds : List Decl) : Prop :=
  ∀ pre d post, ds = pre ++ d :: post → MayFollow pre d

/-- What `build` wants of a variadic parameter after parameters with defaults, and Python does
not: a default of its own, or a keyword-only parameter before it. -/
def VariadicQuirk (pre : List Decl) (d : Decl) : Prop :=
  d.mode.variadic = true → (∃ c ∈ pre, c.hasDefault = true) →
    d.hasDefault = true ∨ ∃ c ∈ pre, c.mode = .keywordOnly

/-! ### The parts of a signature -/

/-- The parameters by kind. -/
structure Parts (α : Type) where
  pos : List (Param α)
  star : Option (Param α)
  kwOnly : List (Param α)
  starStar : Option (Param α)

/-- The parameters with a name of their own, in order. -/
def Parts.named (q : Parts α) : List (Param α) := q.pos ++ q.kwOnly

/-- The validator describes the signature: parameters in Python's order, with distinct names and
without aliases. -/
structure V3.Describes (v : V3 α) (q : Parts α) (s : Sig) : Prop where
  params : v.params = q.pos ++ q.star.toList ++ q.kwOnly ++ q.starStar.toList
  pos : q.pos.map (fun p => (p.mode, p.name)) =
    s.posOnly.map (.positionalOnly, ·) ++ s.posOrKw.map (.positionalOrKeyword, ·)
  kwOnly : q.kwOnly.map (fun p => (p.mode, p.name)) = s.kwOnly.map (.keywordOnly, ·)
  distinct : (v.params.map Param.name).Nodup
  keys : ∀ p ∈ v.params, p.keys = ⟨.simple (.ofStr p.name), none, none⟩
  star : (∀ p, q.star = some p → p.mode = .varArgs) ∧ q.star.isSome = s.star
  starStar : (∀ p, q.starStar = some p → p.mode.varKw = true) ∧ q.starStar.isSome = s.starStar

/-! ### Calls spelled as a mapping -/

/-- The mapping: `view` presents the entries `m`, whose keys are distinct strings. -/
structure V3.Mapping (v : V3 α) (view : DictView α) (m : Dict α) : Prop where
  distinct : (m.map Prod.fst).Nodup
  get : ∀ name, view.get (.simple (.ofStr name)) =
    .ok ((m.get name).map fun x => (.ofStr name, x))
  entries : ∃ mk : String → α, view.entries = .ok (m.map fun kv => .ok (mk kv.1, kv.2)) ∧
    ∀ n, v.keyOps.str (mk n) = .ok n

/-- Python dicts have distinct keys. -/
structure V3.Dicts (v : V3 α) : Prop where
  kwargs : ∀ x es, v.asKwargs x = some es → ∀ ks : List String,
    es.map (fun kv => v.keyOps.str kv.1) = ks.map .ok → ks.Nodup
  dict : ∀ x d, v.asDict x = some d → (d.map Prod.fst).Nodup

/-- `out` is the output for parameter `p` given the argument `given`: the validated argument, or a
default if there is no argument. -/
def ParamOutput (p : Param α) (given : Option α) (out : α) : Prop :=
  match given with
  | some x => ∃ st, (p.run x st).1 = .ok out
  | none => ∃ st, (p.dflt (some (.s p.name)) st).1 = .ok (some out)

/-- `out` is the output for `*args` given an iterable: its items, validated one by one. -/
def V3.StarOutput (v : V3 α) (p : Param α) (given : Option α) (out : List α) : Prop :=
  match given with
  | some x => ∃ e xs, v.asTuple x = some (e, xs.map .ok) ∧ EachValid (some p.run) xs out
  | none => out = []

/-- `out` are the entries, the keys being strings and the values validated one by one. -/
inductive V3.EachEntry (v : V3 α) (p : Param α) : List (α × α) → Dict α → Prop
  | nil : V3.EachEntry v p [] []
  | cons {k x key w st es out} : v.keyOps.str k = .ok key → (p.run x st).1 = .ok w →
      V3.EachEntry v p es out → V3.EachEntry v p ((k, x) :: es) ((key, w) :: out)

/-- `out` is the output for `**kwargs` given a dict: its values validated one by one, or the whole
dict (an empty one, if none is given) validated as a typed dict. -/
def V3.StarStarOutput (v : V3 α) (p : Param α) (given : Option α) (out : Dict α) : Prop :=
  if p.mode = .varKwUniform then
    match given with
    | some x => ∃ es, v.asKwargs x = some es ∧ v.EachEntry p es out
    | none => out = []
  else ∃ st w, (p.run (given.getD (v.mkDict [])) st).1 = .ok w ∧ v.asDict w = some out

/-- The output for an optional `*args`. -/
def V3.StarPart (v : V3 α) (q : Parts α) (m : Dict α) (out : List α) : Prop :=
  match q.star with
  | some p => v.StarOutput p (m.get p.name) out
  | none => out = []

/-- The output for an optional `**kwargs`. -/
def V3.StarStarPart (v : V3 α) (q : Parts α) (m : Dict α) (out : Dict α) : Prop :=
  match q.starStar with
  | some p => v.StarStarOutput p (m.get p.name) out
  | none => out = []

/-- No entry for `**kwargs` has the name of a parameter that can be given by keyword. -/
def V3.NoClash (v : V3 α) (q : Parts α) (s : Sig) (m : Dict α) : Prop :=
  ∀ out, v.StarStarPart q m out → ∀ k ∈ out.map Prod.fst, k ∉ s.keyword

/-- No validator fails without saying why. -/
def V3.Explains (v : V3 α) : Prop :=
  (∀ p ∈ v.params, ∀ x st, (p.run x st).1 ≠ .error (.lineErrors [])) ∧
  ∀ k, v.keyOps.str k ≠ .error (.lineErrors [])

/-- Whatever is given validates, in every state, and whatever is not given has a default. -/
structure V3.AllValid (v : V3 α) (q : Parts α) (m : Dict α) : Prop where
  params : ∀ p ∈ q.named, ∀ x, m.get p.name = some x → ∀ st, ∃ w, (p.run x st).1 = .ok w
  defaults : ∀ p ∈ q.named, m.get p.name = none →
    ∀ st, ∃ w, (p.dflt (some (.s p.name)) st).1 = .ok (some w)
  star : ∀ p x, q.star = some p → m.get p.name = some x → ∃ e,
    ∃ xs : List α, v.asTuple x = some (e, xs.map .ok) ∧ ∀ y ∈ xs, ∀ st, ∃ w, (p.run y st).1 = .ok w
  uniform : ∀ p x, q.starStar = some p → p.mode = .varKwUniform → m.get p.name = some x →
    ∃ es, v.asKwargs x = some es ∧ ∀ kv ∈ es, (∃ key, v.keyOps.str kv.1 = .ok key) ∧
      ∀ st, ∃ w, (p.run kv.2 st).1 = .ok w
  unpacked : ∀ p, q.starStar = some p → p.mode ≠ .varKwUniform →
    ∀ st, ∃ w d, (p.run ((m.get p.name).getD (v.mkDict [])) st).1 = .ok w ∧ v.asDict w = some d

/-- The error type for a parameter that is given no argument. -/
def Mode.lacking : Mode → ErrType
  | .positionalOnly => .missingPositionalOnlyArgument
  | .keywordOnly => .missingKeywordOnlyArgument
  | _ => .missingArgument

/-- The errors a mapping can be rejected with, and where each is reported: under the name of the
parameter (and the index or key in `*args` and `**kwargs`), or under the unknown key. -/
inductive V3.MapError (v : V3 α) (q : Parts α) (m : Dict α) (input : α) : LineError α → Prop
  | param {p x st ls e} : p ∈ q.named → m.get p.name = some x →
      (p.run x st).1 = .error (.lineErrors ls) → e ∈ ls →
      MapError v q m input (e.withOuterLocation (.s p.name))
  | missing {p} : p ∈ q.named → m.get p.name = none →
      MapError v q m input (.newWithLoc p.mode.lacking input (.s p.name))
  | noTuple {p x} : q.star = some p → m.get p.name = some x → v.asTuple x = none →
      MapError v q m input (.newWithLoc (.other "tuple_type") x (.s p.name))
  | item {p x ex xs y st ls e} {i : Nat} : q.star = some p → m.get p.name = some x →
      v.asTuple x = some (ex, xs) → xs[i]? = some (.ok y) →
      (p.run y st).1 = .error (.lineErrors ls) → e ∈ ls →
      MapError v q m input ((e.withOuterLocation (.i i)).withOuterLocation (.s p.name))
  | noDict {p x} : q.starStar = some p → p.mode = .varKwUniform → m.get p.name = some x →
      v.asKwargs x = none →
      MapError v q m input (.newWithLoc (.other "dict_type") x (.s p.name))
  | key {p x es k y ls e} : q.starStar = some p → p.mode = .varKwUniform → m.get p.name = some x →
      v.asKwargs x = some es → (k, y) ∈ es → v.keyOps.str k = .error (.lineErrors ls) → e ∈ ls →
      MapError v q m input
        { (e.withOuterLocation (v.keyOps.loc k)).withOuterLocation (.s p.name) with
          type := .invalidKey }
  | entry {p x es k y st ls e} : q.starStar = some p → p.mode = .varKwUniform →
      m.get p.name = some x → v.asKwargs x = some es → (k, y) ∈ es →
      (p.run y st).1 = .error (.lineErrors ls) → e ∈ ls →
      MapError v q m input ((e.withOuterLocation (v.keyOps.loc k)).withOuterLocation (.s p.name))
  | unpacked {p st ls e} : q.starStar = some p → p.mode ≠ .varKwUniform →
      (p.run ((m.get p.name).getD (v.mkDict [])) st).1 = .error (.lineErrors ls) → e ∈ ls →
      MapError v q m input (e.withOuterLocation (.s p.name))
  | extra {k name x} : v.extra = .forbid → v.keyOps.str k = .ok name → (name, x) ∈ m →
      name ∉ v.params.map Param.name →
      MapError v q m input (.newWithLoc .extraForbidden x (v.keyOps.loc k))

/-! ### Two spellings of one call -/

/-- The mapping `m` and the arguments `args`, `kw` spell the same call. -/
structure V3.SameCall (v : V3 α) (q : Parts α) (s : Sig) (m : Dict α) (args : List α)
    (kw : Dict α) : Prop where
  /-- what a parameter is given -/
  params : ∀ i p, q.named[i]? = some p → m.get p.name = s.bound args kw i
  /-- under the name of `*args`, the surplus positional arguments -/
  star : match q.star with
    | none => s.surplus args = []
    | some p => match m.get p.name with
      | none => s.surplus args = []
      | some x => ∃ e, v.asTuple x = some (e, (s.surplus args).map .ok)
  /-- under the name of `**kwargs`, the surplus keyword arguments -/
  starStar : match q.starStar with
    | none => s.surplusKw kw = []
    | some p => match m.get p.name with
      | none => s.surplusKw kw = []
      | some x => ∃ es, v.asKwargs x = some es ∧
        es.map (fun kv => (v.keyOps.str kv.1, kv.2)) =
          (s.surplusKw kw).map fun kv => (.ok kv.1, kv.2)
  /-- nothing else -/
  known : ∀ k ∈ m.map Prod.fst, k ∈ v.params.map Param.name
  /-- no parameter gets two arguments -/
  once : ∀ i name x, ¬ s.Twice args kw i name x

/-- The outcome of a parameter's validator does not depend on the state of the validation. -/
def Param.Steady (p : Param α) : Prop :=
  (∀ x st st', (p.run x st).1 = (p.run x st').1) ∧
  ∀ loc st st', (p.dflt loc st).1 = (p.dflt loc st').1

/-- The parameter's validator does not look at the name of the field being validated. -/
def Param.FieldBlind (p : Param α) : Prop :=
  (∀ x st, rebindExtra (fun e => { e with fieldName := some p.name }) (p.run x) st = p.run x st) ∧
  ∀ st, rebindExtra (fun e => { e with fieldName := some p.name })
    (p.dflt (some (.s p.name))) st = p.dflt (some (.s p.name)) st

/-! ### The older kind of schema -/

/-- The modes the two kinds of schema have in common. -/
def Mode.older : Mode → Args.Mode
  | .positionalOnly => .positionalOnly
  | .positionalOrKeyword => .positionalOrKeyword
  | _ => .keywordOnly

/-- The same parameter in an `arguments` schema. -/
def Param.older (p : Param α) : Args.Param α := ⟨p.mode.older, p.name, p.keys, p.run, p.dflt⟩

/-- The `arguments` schema of the same signature. -/
def V3.older (v : V3 α) (q : Parts α) : Arguments α where
  params := q.named.map Param.older
  varArgs := q.star.map Param.run
  varKw := match q.starStar with
    | none => .uniform none
    | some p => if p.mode = .varKwUniform then .uniform (some p.run) else .unpacked p.run
  locByAlias := v.locByAlias
  extra := v.extra
  byAlias := v.byAlias
  byName := v.byName
  asArgs := v.asArgs
  keyOps := v.keyOps
  mkDict := v.mkDict
  asDict := v.asDict

end PC.ArgsV3
