import Verif.Model.Arguments

/-
How Python binds the arguments of a call to the parameters of a function, in its own terms:
`def f(posOnly…, /, posOrKw…, *args, kwOnly…, **kwargs)`.
-/

namespace PC.Args
open PC.Lookup PC.Fields
variable {α : Type}

/-- A Python signature: the names of the parameters of each kind, and whether there are `*args`
and `**kwargs`. -/
structure Sig where
  posOnly : List String
  posOrKw : List String
  kwOnly : List String
  star : Bool
  starStar : Bool
  deriving DecidableEq, Repr

namespace Sig

/-- The parameters an argument without a name can go to. -/
def positional (s : Sig) : List String := s.posOnly ++ s.posOrKw

/-- The parameters an argument with a name can go to. -/
def keyword (s : Sig) : List String := s.posOrKw ++ s.kwOnly

/-- All parameters, in order. -/
def params (s : Sig) : List String := s.posOnly ++ s.posOrKw ++ s.kwOnly

/-- The argument Python gives to parameter number `i` in the call `f(*args, **kw)`: the
positional argument at that place if there is one, else the keyword argument of its name. -/
def bound (s : Sig) (args : List α) (kw : Dict α) (i : Nat) : Option α :=
  if i < s.positional.length ∧ i < args.length then args[i]?
  else if s.posOnly.length ≤ i then s.params[i]?.bind fun name => kw.get name
  else none

/-- What ends up in `*args`. -/
def surplus (s : Sig) (args : List α) : List α := args.drop s.positional.length

/-- What ends up in `**kwargs`. -/
def surplusKw (s : Sig) (kw : Dict α) : Dict α := kw.filter fun kv => decide (kv.1 ∉ s.keyword)

/-- Parameter `i` gets both a positional and a keyword argument. -/
def Twice (s : Sig) (args : List α) (kw : Dict α) (i : Nat) (name : String) (v : α) : Prop :=
  s.params[i]? = some name ∧ s.posOnly.length ≤ i ∧ i < s.positional.length ∧ i < args.length ∧
    kw.get name = some v

/-- Python can make the call `f(*args, **kw)`. -/
structure Binds (s : Sig) (hasDefault : Nat → Prop) (args : List α) (kw : Dict α) : Prop where
  /-- no positional argument too many -/
  few : s.star = false → s.surplus args = []
  /-- no keyword argument too many -/
  known : s.starStar = false → s.surplusKw kw = []
  /-- no parameter gets two arguments -/
  once : ∀ i name v, ¬ s.Twice args kw i name v
  /-- no parameter without default gets no argument -/
  enough : ∀ i, i < s.params.length → s.bound args kw i = none → hasDefault i

end Sig

/-- The validator describes the signature: parameters of the three kinds in Python's order, with
distinct names and without aliases, `*args` and `**kwargs` validators where the signature has
them. -/
structure Arguments.Describes (a : Arguments α) (s : Sig) : Prop where
  params : a.params.map (fun p => (p.mode, p.name)) =
    s.posOnly.map (.positionalOnly, ·) ++ s.posOrKw.map (.positionalOrKeyword, ·) ++
      s.kwOnly.map (.keywordOnly, ·)
  distinct : s.params.Nodup
  keys : ∀ p ∈ a.params, p.keys = ⟨.simple (.ofStr p.name), none, none⟩
  star : a.varArgs.isSome = s.star
  starStar : ∃ v, a.varKw = .uniform v ∧ v.isSome = s.starStar
  /-- the default; with another `extra` unexpected keyword arguments are dropped -/
  forbid : a.extra = .forbid

/-- The call: `view` presents the positional arguments `args` and the keyword arguments `kw`,
whose names are distinct. -/
structure Arguments.Call (a : Arguments α) (view : ArgsView α) (args : List α) (kw : Dict α) :
    Prop where
  args : view.args.getD [] = args
  distinct : (kw.map Prod.fst).Nodup
  kwargs : match view.kwargs with
    | none => kw = []
    | some k => k.len = kw.length ∧
      (∀ name, k.get (.simple (.ofStr name)) =
        .ok ((kw.get name).map fun v => (.ofStr name, v))) ∧
      ∃ mk : String → α, k.entries = kw.map (fun kv => .ok (mk kv.1, kv.2)) ∧
        ∀ n, a.keyOps.str (mk n) = .ok n ∧ a.keyOps.loc (mk n) = .s n

/-- Some default of the parameter exists. -/
def Arguments.HasDefault (a : Arguments α) (i : Nat) : Prop :=
  ∃ p st w, a.params[i]? = some p ∧ (p.dflt (some (.s p.name)) st).1 = .ok (some w)

/-- `ws` are the results of validating `vs` one by one. -/
inductive EachValid (v : Option (Validator α α)) : List α → List α → Prop
  | nil : EachValid v [] []
  | cons {f x w st xs ws} : v = some f → (f x st).1 = .ok w → EachValid v xs ws →
      EachValid v (x :: xs) (w :: ws)

/-- `out` are the results of validating the values of `kw` one by one, under the same names. -/
inductive EachKwValid (v : VarKw α) : Dict α → Dict α → Prop
  | nil : EachKwValid v [] []
  | cons {f k x w st xs ws} : v = .uniform (some f) → (f x st).1 = .ok w → EachKwValid v xs ws →
      EachKwValid v ((k, x) :: xs) ((k, w) :: ws)

/-- `out` is the output for parameter `p` given the argument `given`: the validated argument, or
a default if there is no argument. -/
def ParamOutput (p : Param α) (given : Option α) (out : α) : Prop :=
  match given with
  | some x => ∃ st, st.extra.fieldName = some p.name ∧ (p.run x st).1 = .ok out
  | none => ∃ st, st.extra.fieldName = some p.name ∧
      (p.dflt (some (.s p.name)) st).1 = .ok (some out)

/-- No validator fails without saying why. -/
def Arguments.Explains (a : Arguments α) : Prop :=
  (∀ p ∈ a.params, ∀ x st, (p.run x st).1 ≠ .error (.lineErrors [])) ∧
  (∀ f, a.varArgs = some f → ∀ x st, (f x st).1 ≠ .error (.lineErrors [])) ∧
  (∀ f, a.varKw = .uniform (some f) → ∀ x st, (f x st).1 ≠ .error (.lineErrors []))

end PC.Args
