import Verif.Model.Fields

/-
Model of `src/validators/arguments.rs`: validation of the arguments of a call.
-/

namespace PC.Args
open PC.Lookup PC.Fields
variable {α : Type}

/-- The `mode` of a parameter, `src/validators/arguments.rs:86-99`. -/
inductive Mode where
  | positionalOnly
  | positionalOrKeyword
  | keywordOnly
  deriving DecidableEq, Repr

/-- `Parameter::positional`, `src/validators/arguments.rs:92`. -/
def Mode.positional : Mode → Bool
  | .keywordOnly => false
  | _ => true

/-- Whether the parameter has a `kwarg_key`, `src/validators/arguments.rs:101-105`; the same test
decides whether keyword arguments are looked up, `:215`. -/
def Mode.keyword : Mode → Bool
  | .positionalOnly => false
  | _ => true

/-- `Parameter`, `src/validators/arguments.rs:41-49`.  `kwarg_key` is the name; `run` and `dflt`
are the validator's `validate` and `default_value`. -/
structure Param (α : Type) where
  mode : Mode
  name : String
  keys : KeyCollection
  run : Validator α α
  dflt : Option LocItem → VState α → ValResult α (Option α) × VState α

/-- Keyword arguments of an input: trait `KeywordArgs`, `src/input/input_abstract.rs`. -/
structure KwView (α : Type) where
  get : LookupKey → ValResult α (Option (LookupPath × α))
  entries : List (ValResult α (α × α))
  len : Nat

/-- Arguments of an input: trait `Arguments`, `src/input/input_abstract.rs`. -/
structure ArgsView (α : Type) where
  args : Option (List α)
  kwargs : Option (KwView α)

/-- `var_kwargs_mode` with `var_kwargs_validator`, `src/validators/arguments.rs:143-158`. -/
inductive VarKw (α : Type) where
  /-- mode `uniform`, with or without a validator -/
  | uniform (v : Option (Validator α α))
  /-- mode `unpacked-typed-dict` -/
  | unpacked (v : Validator α α)

/-- The arguments of a Python call, `PyArgs`, `src/input/input_python.rs:745-816`: a tuple and a
dict with string keys (`mk` makes the Python string); either may be absent (`validate_args`,
`src/input/input_python.rs:104-118`). -/
def pyArgsView (ops : PyOps α) (mk : String → α) (args : Option (List α)) (kw : Option (Dict α)) :
    ArgsView α :=
  ⟨args, kw.map fun d =>
    ⟨LookupKey.pyGetDictItem ops (fun k => .ok (Dict.get k d)),
      d.map fun kv => .ok (mk kv.1, kv.2), d.length⟩⟩

/-- `ArgumentsValidator`, `src/validators/arguments.rs:51-62`.  `asArgs` is
`Input::validate_args`; `mkDict` and `asDict` make an object of a dict and back (a Python dict
passed to and returned by the validator of unpacked keyword arguments). -/
structure Arguments (α : Type) where
  params : List (Param α)
  varArgs : Option (Validator α α)
  varKw : VarKw α
  locByAlias : Bool
  extra : ExtraBehavior
  byAlias : Option Bool
  byName : Option Bool
  asArgs : α → ValResult α (ArgsView α)
  keyOps : KeyOps α
  mkDict : Dict α → α
  asDict : α → Option (Dict α)

/-- `positional_params_count`, `src/validators/arguments.rs:92-95`: one more than the index of the
last positional parameter. -/
def posCount : List (Param α) → Nat
  | [] => 0
  | p :: ps => if p.mode.positional ∨ posCount ps > 0 then posCount ps + 1 else 0

/-- The local variables of `validate`, `src/validators/arguments.rs:197-200`. -/
structure Acc (α : Type) where
  outArgs : List α
  outKwargs : Dict α
  errs : List (LineError α)
  used : List String
  st : VState α

/-- `AHashSet::insert`. -/
def insertNew (k : String) (used : List String) : List String :=
  if used.contains k then used else used ++ [k]

/-- The lookup of a keyword argument, `src/validators/arguments.rs:213-230`. -/
def Arguments.lookup (view : ArgsView α) (p : Param α) (byAlias byName : Bool) :
    ValResult α (Option LookupKey × Option (LookupPath × α)) :=
  if p.mode.keyword then
    match p.keys.select byAlias byName with
    | .error e => .error (.internal e)
    | .ok key =>
      match view.kwargs with
      | none => .ok (some key, none)
      | some kw =>
        match kw.get key with
        | .error e => .error e
        | .ok r => .ok (some key, r)
  else .ok (none, none)

/-- The positional value of a parameter, `src/validators/arguments.rs:207-212`. -/
def posValue (view : ArgsView α) (p : Param α) (index : Nat) : Option α :=
  match view.args with
  | some args => if p.mode.positional then args[index]? else none
  | none => none

/-- One iteration of the loop over parameters, `src/validators/arguments.rs:206-289`. -/
def Arguments.step (a : Arguments α) (view : ArgsView α) (input : α) (byAlias byName : Bool)
    (index : Nat) (p : Param α) (acc : Acc α) : ValResult α Unit × Acc α :=
  match Arguments.lookup view p byAlias byName with
  | .error e => (.error e, acc)
  | .ok (key?, kw?) =>
    let acc :=
      match kw? with
      | some (path, _) => { acc with used := insertNew path.first acc.used }
      | none => acc
    match posValue view p index, kw? with
    | some _, some (_, v) =>
      (.ok (), { acc with errs := acc.errs ++ [.newWithLoc .multipleArgumentValues v (.s p.name)] })
    | some x, none =>
      let r := rebindExtra (fun e => { e with fieldName := some p.name }) (p.run x) acc.st
      let acc := { acc with st := r.2 }
      match r.1 with
      | .ok v => (.ok (), { acc with outArgs := acc.outArgs ++ [v] })
      | .error (.lineErrors ls) =>
        (.ok (), { acc with errs := acc.errs ++ ls.map (·.withOuterLocation (.i index)) })
      | .error e => (.error e, acc)
    | none, some (path, x) =>
      let r := rebindExtra (fun e => { e with fieldName := some p.name }) (p.run x) acc.st
      let acc := { acc with st := r.2 }
      match r.1 with
      | .ok v => (.ok (), { acc with outKwargs := acc.outKwargs.set p.name v })
      | .error (.lineErrors ls) =>
        (.ok (), { acc with errs := acc.errs ++ ls.map (path.applyErrorLoc · a.locByAlias p.name) })
      | .error e => (.error e, acc)
    | none, none =>
      let r := rebindExtra (fun e => { e with fieldName := some p.name })
        (p.dflt (some (.s p.name))) acc.st
      let acc := { acc with st := r.2 }
      match r.1 with
      | .ok (some v) =>
        if p.mode.keyword then (.ok (), { acc with outKwargs := acc.outKwargs.set p.name v })
        else (.ok (), { acc with outArgs := acc.outArgs ++ [v] })
      | .ok none =>
        match key? with
        | some key =>
          let t := if p.mode.positional then ErrType.missingArgument
            else ErrType.missingKeywordOnlyArgument
          (.ok (), { acc with errs := acc.errs ++ (key.error t input a.locByAlias p.name).toList })
        | none =>
          (.ok (), { acc with
            errs := acc.errs ++ [.newWithLoc .missingPositionalOnlyArgument input (.i index)] })
      | .error e => (.error e, acc)

/-- The loop over parameters, `src/validators/arguments.rs:206-289`. -/
def Arguments.loop (a : Arguments α) (view : ArgsView α) (input : α) (byAlias byName : Bool) :
    Nat → List (Param α) → Acc α → ValResult α Unit × Acc α
  | _, [], acc => (.ok (), acc)
  | i, p :: ps, acc =>
    let r := a.step view input byAlias byName i p acc
    match r.1 with
    | .ok () => a.loop view input byAlias byName (i + 1) ps r.2
    | .error e => (.error e, r.2)

/-- The loop over surplus positional arguments with a validator,
`src/validators/arguments.rs:294-303`. -/
def varArgsLoop (v : Validator α α) : Nat → List α → Acc α → ValResult α Unit × Acc α
  | _, [], acc => (.ok (), acc)
  | i, x :: xs, acc =>
    let r := v x acc.st
    let acc := { acc with st := r.2 }
    match r.1 with
    | .ok w => varArgsLoop v (i + 1) xs { acc with outArgs := acc.outArgs ++ [w] }
    | .error (.lineErrors ls) =>
      varArgsLoop v (i + 1) xs
        { acc with errs := acc.errs ++ ls.map (·.withOuterLocation (.i i)) }
    | .error e => (.error e, acc)

/-- The errors for surplus positional arguments, `src/validators/arguments.rs:304-312`. -/
def unexpectedArgs : Nat → List α → List (LineError α)
  | _, [] => []
  | i, x :: xs => .newWithLoc .unexpectedPositionalArgument x (.i i) :: unexpectedArgs (i + 1) xs

/-- The surplus positional arguments, `src/validators/arguments.rs:290-314`. -/
def Arguments.varArgsPart (a : Arguments α) (view : ArgsView α) (acc : Acc α) :
    ValResult α Unit × Acc α :=
  match view.args with
  | none => (.ok (), acc)
  | some args =>
    let n := posCount a.params
    if args.length > n then
      match a.varArgs with
      | some v => varArgsLoop v n (args.drop n) acc
      | none => (.ok (), { acc with errs := acc.errs ++ unexpectedArgs n (args.drop n) })
    else (.ok (), acc)

/-- One surplus keyword argument, `src/validators/arguments.rs:322-373`; `rest` is
`remaining_kwargs`. -/
def Arguments.kwStep (a : Arguments α) (rawKey value : α) (rest : Dict α) (acc : Acc α) :
    ValResult α (Dict α) × Acc α :=
  match a.keyOps.str rawKey with
  | .error (.lineErrors ls) =>
    (.ok rest, { acc with errs := acc.errs ++ ls.map fun e =>
      { e.withOuterLocation (a.keyOps.loc rawKey) with type := .invalidKey } })
  | .error e => (.error e, acc)
  | .ok key =>
    if acc.used.contains key then (.ok rest, acc)
    else
      match a.varKw with
      | .uniform (some v) =>
        let r := v value acc.st
        let acc := { acc with st := r.2 }
        match r.1 with
        | .ok w => (.ok rest, { acc with outKwargs := acc.outKwargs.set key w })
        | .error (.lineErrors ls) =>
          (.ok rest,
            { acc with errs := acc.errs ++ ls.map (·.withOuterLocation (a.keyOps.loc rawKey)) })
        | .error e => (.error e, acc)
      | .uniform none =>
        if a.extra = .forbid then
          (.ok rest, { acc with
            errs := acc.errs ++ [.newWithLoc .unexpectedKeywordArgument value (a.keyOps.loc rawKey)] })
        else (.ok rest, acc)
      | .unpacked _ => (.ok (rest.set key value), acc)

/-- The loop over surplus keyword arguments, `src/validators/arguments.rs:321-374`. -/
def Arguments.kwLoop (a : Arguments α) :
    List (ValResult α (α × α)) → Dict α → Acc α → ValResult α (Dict α) × Acc α
  | [], rest, acc => (.ok rest, acc)
  | .error e :: _, _, acc => (.error e, acc)
  | .ok (k, v) :: es, rest, acc =>
    let r := a.kwStep k v rest acc
    match r.1 with
    | .ok rest => a.kwLoop es rest r.2
    | .error e => (.error e, r.2)

/-- The surplus keyword arguments, `src/validators/arguments.rs:316-376`. -/
def Arguments.kwPart (a : Arguments α) (view : ArgsView α) (acc : Acc α) :
    ValResult α (Dict α) × Acc α :=
  match view.kwargs with
  | none => (.ok [], acc)
  | some kw => if kw.len > acc.used.length then a.kwLoop kw.entries [] acc else (.ok [], acc)

/-- Unpacked keyword arguments, `src/validators/arguments.rs:378-394`.  A validated value that is
no dict makes `unwrap` panic. -/
def Arguments.unpackedPart (a : Arguments α) (rest : Dict α) (acc : Acc α) :
    ValResult α Unit × Acc α :=
  match a.varKw with
  | .uniform _ => (.ok (), acc)
  | .unpacked v =>
    let r := v (a.mkDict rest) acc.st
    let acc := { acc with st := r.2 }
    match r.1 with
    | .ok w =>
      match a.asDict w with
      | some d => (.ok (), { acc with outKwargs := acc.outKwargs.update d })
      | none => (.error (.internal ⟨"panic"⟩), acc)
    | .error (.lineErrors ls) => (.ok (), { acc with errs := acc.errs ++ ls })
    | .error e => (.error e, acc)

/-- `validate` after `validate_args`, `src/validators/arguments.rs:197-400`. -/
def Arguments.run (a : Arguments α) (view : ArgsView α) (input : α) (st : VState α) :
    ValResult α (List α × Dict α) × VState α :=
  let r1 := a.loop view input (st.validateByAliasOr a.byAlias) (st.validateByNameOr a.byName) 0
    a.params ⟨[], [], [], [], st⟩
  match r1.1 with
  | .error e => (.error e, r1.2.st)
  | .ok () =>
    let r2 := a.varArgsPart view r1.2
    match r2.1 with
    | .error e => (.error e, r2.2.st)
    | .ok () =>
      let r3 := a.kwPart view r2.2
      match r3.1 with
      | .error e => (.error e, r3.2.st)
      | .ok rest =>
        let r4 := a.unpackedPart rest r3.2
        match r4.1 with
        | .error e => (.error e, r4.2.st)
        | .ok () =>
          if r4.2.errs.isEmpty then (.ok (r4.2.outArgs, r4.2.outKwargs), r4.2.st)
          else (.error (.lineErrors r4.2.errs), r4.2.st)

/-- `ArgumentsValidator::validate`, `src/validators/arguments.rs:186-401`. -/
def Arguments.validate (a : Arguments α) : Validator α (List α × Dict α) := fun input st =>
  let st := { st with allowPartial := .ofBool false }
  match a.asArgs input with
  | .error e => (.error e, st)
  | .ok view => a.run view input st

end PC.Args
