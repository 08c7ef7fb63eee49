import Verif.Model.Arguments

/-
Model of `src/validators/arguments_v3.rs`: validation of the arguments of a call that are given
either as a mapping from parameter names to values or as an `ArgsKwargs` object.
-/

namespace PC.ArgsV3
open PC.Lookup PC.Fields
open PC.Args (Acc KwView ArgsView insertNew unexpectedArgs varArgsLoop)
variable {α : Type}

/-- `ParameterMode`, `src/validators/arguments_v3.rs:24-32`. -/
inductive Mode where
  | positionalOnly
  | positionalOrKeyword
  | varArgs
  | keywordOnly
  | varKwUniform
  | varKwUnpacked
  deriving DecidableEq, Repr

/-- `Parameter::is_variadic`, `src/validators/arguments_v3.rs:59-64`. -/
def Mode.variadic : Mode → Bool
  | .varArgs | .varKwUniform | .varKwUnpacked => true
  | _ => false

/-- The pattern `PositionalOnly | PositionalOrKeyword`, `src/validators/arguments_v3.rs:197-205`
and elsewhere. -/
def Mode.positional : Mode → Bool
  | .positionalOnly | .positionalOrKeyword => true
  | _ => false

/-- The pattern `PositionalOrKeyword | KeywordOnly`, `src/validators/arguments_v3.rs:546-549`. -/
def Mode.keyword : Mode → Bool
  | .positionalOrKeyword | .keywordOnly => true
  | _ => false

/-- The pattern `VarKwargsUniform | VarKwargsUnpackedTypedDict`,
`src/validators/arguments_v3.rs:681-686`. -/
def Mode.varKw : Mode → Bool
  | .varKwUniform | .varKwUnpacked => true
  | _ => false

/-! ### Building -/

/-- What `build` reads of one parameter: its name, its mode, `has_default` and `omit_on_error` of
its validator (both false unless it is a `WithDefault`), `src/validators/arguments_v3.rs:98-178`. -/
structure Decl where
  name : String
  mode : Mode
  hasDefault : Bool
  omitOnError : Bool
  deriving DecidableEq, Repr

/-- The schema errors of `build`, `src/validators/arguments_v3.rs:103-181`. -/
inductive BuildErr where
  | duplicateName (name : String)
  | positionalOnlyAfterOthers (name : String)
  | positionalOrKeywordAfter (name : String)
  | duplicateVarArgs (name : String)
  | varArgsAfter (name : String)
  | keywordOnlyAfter (name : String)
  | duplicateVarKwargs (name : String)
  | omitOnErrorUsed (name : String)
  | requiredAfterDefault (name : String)
  deriving DecidableEq, Repr

/-- The local variables of `build`, `src/validators/arguments_v3.rs:90-96`. -/
structure BuildSt where
  hadDefault : Bool := false
  hadPosOrKw : Bool := false
  hadVarArgs : Bool := false
  hadKwOnly : Bool := false
  hadVarKw : Bool := false
  names : List String := []
  deriving DecidableEq, Repr

/-- The `match mode` of `build`, `src/validators/arguments_v3.rs:116-161`. -/
def kindCheck (st : BuildSt) (name : String) : Mode → Except BuildErr BuildSt
  | .positionalOnly =>
    if st.hadPosOrKw || st.hadVarArgs || st.hadKwOnly || st.hadVarKw then
      .error (.positionalOnlyAfterOthers name)
    else .ok st
  | .positionalOrKeyword =>
    if st.hadVarArgs || st.hadKwOnly || st.hadVarKw then .error (.positionalOrKeywordAfter name)
    else .ok { st with hadPosOrKw := true }
  | .varArgs =>
    if st.hadVarArgs then .error (.duplicateVarArgs name)
    else if st.hadKwOnly || st.hadVarKw then .error (.varArgsAfter name)
    else .ok { st with hadVarArgs := true }
  | .keywordOnly =>
    if st.hadVarKw then .error (.keywordOnlyAfter name) else .ok { st with hadKwOnly := true }
  | .varKwUniform | .varKwUnpacked =>
    if st.hadVarKw then .error (.duplicateVarKwargs name) else .ok { st with hadVarKw := true }

/-- One iteration of the loop of `build`, `src/validators/arguments_v3.rs:98-195`; building the
validator and the lookup keys is left out. -/
def buildStep (st : BuildSt) (d : Decl) : Except BuildErr BuildSt :=
  if d.name ∈ st.names then .error (.duplicateName d.name)
  else
    match kindCheck { st with names := d.name :: st.names } d.name d.mode with
    | .error e => .error e
    | .ok st =>
      if d.omitOnError then .error (.omitOnErrorUsed d.name)
      else if st.hadDefault && !d.hasDefault && !st.hadKwOnly then
        .error (.requiredAfterDefault d.name)
      else if d.hasDefault then .ok { st with hadDefault := true }
      else .ok st

/-- The loop of `build`, `src/validators/arguments_v3.rs:98-195`. -/
def buildLoop : BuildSt → List Decl → Except BuildErr BuildSt
  | st, [] => .ok st
  | st, d :: ds =>
    match buildStep st d with
    | .error e => .error e
    | .ok st => buildLoop st ds

/-- `build`, `src/validators/arguments_v3.rs:80-216`: whether the parameters are accepted. -/
def build (ds : List Decl) : Except BuildErr Unit := (buildLoop {} ds).map fun _ => ()

/-! ### Validating -/

/-- `Parameter`, `src/validators/arguments_v3.rs:50-56`; `run` and `dflt` are the validator's
`validate` and `default_value`. -/
structure Param (α : Type) where
  mode : Mode
  name : String
  keys : KeyCollection
  run : Validator α α
  dflt : Option LocItem → VState α → ValResult α (Option α) × VState α

/-- `ArgumentsV3Validator`, `src/validators/arguments_v3.rs:67-75`, with the functions of the input
it calls: `asMapping` is `Input::validate_dict(false)` (its error is thrown away, `:771`), `asArgs`
is `Input::validate_args_v3`, `asTuple` is `Input::validate_tuple(false)`: how exact the match is
(`unpack`) and the items (one may fail: generators), `asKwargs` is `Input::as_kwargs` (for JSON input it makes
Python objects of the values), `mkDict` and `asDict` make an object of a dict and back. -/
structure V3 (α : Type) where
  params : List (Param α)
  locByAlias : Bool
  extra : ExtraBehavior
  byAlias : Option Bool
  byName : Option Bool
  asMapping : α → Option (DictView α)
  asArgs : α → ValResult α (ArgsView α)
  asTuple : α → Option (Exactness × List (Except PyErr α))
  asKwargs : α → Option (List (α × α))
  keyOps : KeyOps α
  mkDict : Dict α → α
  asDict : α → Option (Dict α)

/-- `positional_params_count`, `src/validators/arguments_v3.rs:197-205`. -/
def V3.posCount (v : V3 α) : Nat := (v.params.filter fun p => p.mode.positional).length

/-- Validating one value in a match whose arms are: store the result, add the line errors, pass
any other error on (the pattern repeated at `src/validators/arguments_v3.rs:267-277`, `:313-325`,
`:565-585` and elsewhere). -/
def into (r : ValResult α α × VState α) (acc : Acc α) (store : α → Acc α → Acc α)
    (loc : LineError α → LineError α) : ValResult α Unit × Acc α :=
  let acc := { acc with st := r.2 }
  match r.1 with
  | .ok w => (.ok (), store w acc)
  | .error (.lineErrors ls) => (.ok (), { acc with errs := acc.errs ++ ls.map loc })
  | .error e => (.error e, acc)

/-- `output_args.push(value)`. -/
def pushArg (w : α) (acc : Acc α) : Acc α := { acc with outArgs := acc.outArgs ++ [w] }

/-- `output_kwargs.set_item(name, value)`. -/
def setKw (name : String) (w : α) (acc : Acc α) : Acc α :=
  { acc with outKwargs := acc.outKwargs.set name w }

/-- The items of a variadic positional parameter in a mapping,
`src/validators/arguments_v3.rs:281-305`; an item that fails makes `v.unwrap()` panic. -/
def V3.tupleLoop (v : V3 α) (p : Param α) (path : LookupPath) :
    Nat → List (Except PyErr α) → Acc α → ValResult α Unit × Acc α
  | _, [], acc => (.ok (), acc)
  | _, .error _ :: _, acc => (.error (.internal ⟨"panic"⟩), acc)
  | i, .ok x :: xs, acc =>
    let r := into (p.run x acc.st) acc pushArg fun e =>
      path.applyErrorLoc (e.withOuterLocation (.i i)) v.locByAlias p.name
    match r.1 with
    | .ok () => v.tupleLoop p path (i + 1) xs r.2
    | .error e => (.error e, r.2)

/-- The entries of a variadic keyword parameter in a mapping,
`src/validators/arguments_v3.rs:330-360`.  The key of the output is the key object itself; here it
is the string it stands for. -/
def V3.kwargsLoop (v : V3 α) (p : Param α) (path : LookupPath) :
    List (α × α) → Acc α → ValResult α Unit × Acc α
  | [], acc => (.ok (), acc)
  | (k, x) :: es, acc =>
    match v.keyOps.str k with
    | .error (.lineErrors ls) =>
      v.kwargsLoop p path es { acc with errs := acc.errs ++ ls.map fun e =>
        { (e.withOuterLocation (v.keyOps.loc k)).withOuterLocation (.s p.name) with
          type := .invalidKey } }
    | .error e => (.error e, acc)
    | .ok key =>
      let r := into (p.run x acc.st) acc (setKw key) fun e =>
        path.applyErrorLoc (e.withOuterLocation (v.keyOps.loc k)) v.locByAlias p.name
      match r.1 with
      | .ok () => v.kwargsLoop p path es r.2
      | .error e => (.error e, r.2)

/-- Unpacked keyword arguments: `output_kwargs.update(...)`, where `unwrap` of the downcast panics
if the validated value is no dict; `src/validators/arguments_v3.rs:368-380`, `:419-431` and
`:736-747`. -/
def V3.unpack (v : V3 α) (p : Param α) (x : α) (loc : LineError α → LineError α) (acc : Acc α) :
    ValResult α Unit × Acc α :=
  let r := p.run x acc.st
  let acc := { acc with st := r.2 }
  match r.1 with
  | .ok w =>
    match v.asDict w with
    | some d => (.ok (), { acc with outKwargs := acc.outKwargs.update d })
    | none => (.error (.internal ⟨"panic"⟩), acc)
  | .error (.lineErrors ls) => (.ok (), { acc with errs := acc.errs ++ ls.map loc })
  | .error e => (.error e, acc)

/-- A value is present in the mapping, `src/validators/arguments_v3.rs:265-382`. -/
def V3.present (v : V3 α) (p : Param α) (path : LookupPath) (x : α) (acc : Acc α) :
    ValResult α Unit × Acc α :=
  match p.mode with
  | .positionalOnly | .positionalOrKeyword =>
    into (p.run x acc.st) acc pushArg fun e => path.applyErrorLoc e v.locByAlias p.name
  | .varArgs =>
    match v.asTuple x with
    | some (e, xs) => v.tupleLoop p path 0 xs { acc with st := acc.st.floorExactness e }
    | none => (.ok (), { acc with
        errs := acc.errs ++ [path.applyErrorLoc (.new (.other "tuple_type") x) v.locByAlias p.name] })
  | .keywordOnly =>
    into (p.run x acc.st) acc (setKw p.name) fun e => path.applyErrorLoc e v.locByAlias p.name
  | .varKwUniform =>
    match v.asKwargs x with
    | some es => v.kwargsLoop p path es acc
    | none => (.ok (), { acc with
        errs := acc.errs ++ [path.applyErrorLoc (.new (.other "dict_type") x) v.locByAlias p.name] })
  | .varKwUnpacked => v.unpack p x (fun e => path.applyErrorLoc e v.locByAlias p.name) acc

/-- The error for a missing argument, `src/validators/arguments_v3.rs:402-407`. -/
def missingType : Mode → ErrType
  | .positionalOnly => .missingPositionalOnlyArgument
  | .positionalOrKeyword => .missingArgument
  | _ => .missingKeywordOnlyArgument

/-- No value is present in the mapping, `src/validators/arguments_v3.rs:383-436`. -/
def V3.absent (v : V3 α) (input : α) (p : Param α) (key : LookupKey) (acc : Acc α) :
    ValResult α Unit × Acc α :=
  match p.mode with
  | .positionalOnly | .positionalOrKeyword | .keywordOnly =>
    let r := p.dflt (some (.s p.name)) acc.st
    let acc := { acc with st := r.2 }
    match r.1 with
    | .ok (some w) =>
      if p.mode.positional then (.ok (), pushArg w acc) else (.ok (), setKw p.name w acc)
    | .ok none => (.ok (), { acc with
        errs := acc.errs ++ (key.error (missingType p.mode) input v.locByAlias p.name).toList })
    | .error e => (.error e, acc)
  | .varKwUnpacked => v.unpack p (v.mkDict []) (·.withOuterLocation (.s p.name)) acc
  | .varArgs | .varKwUniform => (.ok (), acc)

/-- One iteration of the loop over parameters in a mapping,
`src/validators/arguments_v3.rs:252-437`.  `acc.used` is `used_keys`, kept here whether or not it
is needed. -/
def V3.mapStep (v : V3 α) (view : DictView α) (input : α) (byAlias byName : Bool) (p : Param α)
    (acc : Acc α) : ValResult α Unit × Acc α :=
  match p.keys.select byAlias byName with
  | .error e => (.error (.internal e), acc)
  | .ok key =>
    match view.get key with
    | .error e => (.error e, acc)
    | .ok (some (path, x)) =>
      v.present p path x { acc with used := insertNew path.first acc.used }
    | .ok none => v.absent input p key acc

/-- The loop over parameters in a mapping, `src/validators/arguments_v3.rs:252-437`. -/
def V3.mapLoop (v : V3 α) (view : DictView α) (input : α) (byAlias byName : Bool) :
    List (Param α) → Acc α → ValResult α Unit × Acc α
  | [], acc => (.ok (), acc)
  | p :: ps, acc =>
    let r := v.mapStep view input byAlias byName p acc
    match r.1 with
    | .ok () => v.mapLoop view input byAlias byName ps r.2
    | .error e => (.error e, r.2)

/-- `ValidateExtra`, `src/validators/arguments_v3.rs:440-490`. -/
def V3.extraLoop (v : V3 α) : List (ValResult α (α × α)) → Acc α → ValResult α Unit × Acc α
  | [], acc => (.ok (), acc)
  | .error e :: _, acc => (.error e, acc)
  | .ok (k, x) :: es, acc =>
    match v.keyOps.str k with
    | .error (.lineErrors ls) =>
      v.extraLoop es { acc with errs := acc.errs ++ ls.map fun e =>
        { e.withOuterLocation (v.keyOps.loc k) with type := .invalidKey } }
    | .error e => (.error e, acc)
    | .ok key =>
      if acc.used.contains key then v.extraLoop es acc
      else if v.extra = .forbid then
        v.extraLoop es { acc with
          errs := acc.errs ++ [.newWithLoc .extraForbidden x (v.keyOps.loc k)] }
      else v.extraLoop es acc

/-- The keys of the mapping that belong to no parameter, `src/validators/arguments_v3.rs:245-250`
and `:439-497`. -/
def V3.extraPart (v : V3 α) (view : DictView α) (acc : Acc α) : ValResult α Unit × Acc α :=
  if v.extra = .ignore ∨ view.isPyGetAttr then (.ok (), acc)
  else
    match view.entries with
    | .error e => (.error e, acc)
    | .ok es => v.extraLoop es acc

/-- The end of both functions, `src/validators/arguments_v3.rs:499-503` and `:750-754`. -/
def finish (acc : Acc α) : ValResult α (List α × Dict α) × VState α :=
  if acc.errs.isEmpty then (.ok (acc.outArgs, acc.outKwargs), acc.st)
  else (.error (.lineErrors acc.errs), acc.st)

/-- `validate_from_mapping`, `src/validators/arguments_v3.rs:231-504`. -/
def V3.fromMapping (v : V3 α) (view : DictView α) (input : α) (st : VState α) :
    ValResult α (List α × Dict α) × VState α :=
  let r1 := v.mapLoop view input (st.validateByAliasOr v.byAlias) (st.validateByNameOr v.byName)
    v.params ⟨[], [], [], [], st⟩
  match r1.1 with
  | .error e => (.error e, r1.2.st)
  | .ok () =>
    let r2 := v.extraPart view r1.2
    match r2.1 with
    | .error e => (.error e, r2.2.st)
    | .ok () => finish r2.2

/-- The lookup of a keyword argument, `src/validators/arguments_v3.rs:544-555`. -/
def kwLookup (view : ArgsView α) (p : Param α) (key : LookupKey) :
    ValResult α (Option (LookupPath × α)) :=
  match view.kwargs with
  | none => .ok none
  | some kw => if p.mode.keyword then kw.get key else .ok none

/-- The positional value of a parameter, `src/validators/arguments_v3.rs:534-542`. -/
def posValue (view : ArgsView α) (p : Param α) (index : Nat) : Option α :=
  match view.args with
  | some args => if p.mode.positional then args[index]? else none
  | none => none

/-- One iteration of the loop over non-variadic parameters of an `ArgsKwargs`,
`src/validators/arguments_v3.rs:529-628`. -/
def V3.argStep (v : V3 α) (view : ArgsView α) (input : α) (byAlias byName : Bool) (index : Nat)
    (p : Param α) (acc : Acc α) : ValResult α Unit × Acc α :=
  match p.keys.select byAlias byName with
  | .error e => (.error (.internal e), acc)
  | .ok key =>
    match kwLookup view p key with
    | .error e => (.error e, acc)
    | .ok kw? =>
      let acc :=
        match kw? with
        | some (path, _) => { acc with used := insertNew path.first acc.used }
        | none => acc
      match posValue view p index, kw? with
      | some _, some (_, x) =>
        (.ok (), { acc with
          errs := acc.errs ++ [.newWithLoc .multipleArgumentValues x (.s p.name)] })
      | some x, none => into (p.run x acc.st) acc pushArg (·.withOuterLocation (.i index))
      | none, some (path, x) =>
        into (p.run x acc.st) acc (setKw p.name) fun e => path.applyErrorLoc e v.locByAlias p.name
      | none, none =>
        let r := p.dflt (some (.s p.name)) acc.st
        let acc := { acc with st := r.2 }
        match r.1 with
        | .ok (some w) =>
          if p.mode = .positionalOnly then (.ok (), pushArg w acc)
          else (.ok (), setKw p.name w acc)
        | .ok none =>
          if p.mode = .positionalOnly then
            (.ok (), { acc with
              errs := acc.errs ++ [.newWithLoc .missingPositionalOnlyArgument input (.i index)] })
          else
            (.ok (), { acc with errs := acc.errs ++
              (key.error (missingType p.mode) input v.locByAlias p.name).toList })
        | .error e => (.error e, acc)

/-- The loop over non-variadic parameters, `src/validators/arguments_v3.rs:529-628`. -/
def V3.argLoop (v : V3 α) (view : ArgsView α) (input : α) (byAlias byName : Bool) :
    Nat → List (Param α) → Acc α → ValResult α Unit × Acc α
  | _, [], acc => (.ok (), acc)
  | i, p :: ps, acc =>
    let r := v.argStep view input byAlias byName i p acc
    match r.1 with
    | .ok () => v.argLoop view input byAlias byName (i + 1) ps r.2
    | .error e => (.error e, r.2)

/-- The surplus positional arguments, `src/validators/arguments_v3.rs:630-654`. -/
def V3.surplusPart (v : V3 α) (view : ArgsView α) (acc : Acc α) : ValResult α Unit × Acc α :=
  match view.args with
  | none => (.ok (), acc)
  | some args =>
    if args.length > v.posCount then
      match v.params.find? fun p => decide (p.mode = .varArgs) with
      | some p => varArgsLoop p.run v.posCount (args.drop v.posCount) acc
      | none =>
        (.ok (), { acc with errs := acc.errs ++ unexpectedArgs v.posCount (args.drop v.posCount) })
    else (.ok (), acc)

/-- One surplus keyword argument, `src/validators/arguments_v3.rs:661-726`; `rest` is
`remaining_kwargs`. -/
def V3.surplusKwStep (v : V3 α) (rawKey value : α) (rest : Dict α) (acc : Acc α) :
    ValResult α (Dict α) × Acc α :=
  match v.keyOps.str rawKey with
  | .error (.lineErrors ls) =>
    (.ok rest, { acc with errs := acc.errs ++ ls.map fun e =>
      { e.withOuterLocation (v.keyOps.loc rawKey) with type := .invalidKey } })
  | .error e => (.error e, acc)
  | .ok key =>
    if acc.used.contains key then (.ok rest, acc)
    else
      match v.params.find? fun p => p.mode.varKw with
      | none =>
        if v.extra = .forbid then
          (.ok rest, { acc with errs := acc.errs ++
            [.newWithLoc .unexpectedKeywordArgument value (v.keyOps.loc rawKey)] })
        else (.ok rest, acc)
      | some p =>
        if p.mode = .varKwUniform then
          let r := into (p.run value acc.st) acc (setKw key)
            (·.withOuterLocation (v.keyOps.loc rawKey))
          (r.1.map fun _ => rest, r.2)
        else (.ok (rest.set key value), acc)

/-- The loop over surplus keyword arguments, `src/validators/arguments_v3.rs:661-726`. -/
def V3.surplusKwLoop (v : V3 α) :
    List (ValResult α (α × α)) → Dict α → Acc α → ValResult α (Dict α) × Acc α
  | [], rest, acc => (.ok rest, acc)
  | .error e :: _, _, acc => (.error e, acc)
  | .ok (k, x) :: es, rest, acc =>
    let r := v.surplusKwStep k x rest acc
    match r.1 with
    | .ok rest => v.surplusKwLoop es rest r.2
    | .error e => (.error e, r.2)

/-- The surplus keyword arguments, `src/validators/arguments_v3.rs:656-728`. -/
def V3.surplusKwPart (v : V3 α) (view : ArgsView α) (acc : Acc α) :
    ValResult α (Dict α) × Acc α :=
  match view.kwargs with
  | none => (.ok [], acc)
  | some kw =>
    if kw.len > acc.used.length then v.surplusKwLoop kw.entries [] acc else (.ok [], acc)

/-- The unpacked keyword arguments, `src/validators/arguments_v3.rs:730-748`. -/
def V3.unpackedPart (v : V3 α) (rest : Dict α) (acc : Acc α) : ValResult α Unit × Acc α :=
  match v.params.find? fun p => decide (p.mode = .varKwUnpacked) with
  | some p => v.unpack p (v.mkDict rest) id acc
  | none => (.ok (), acc)

/-- `validate_from_argskwargs`, `src/validators/arguments_v3.rs:513-755`. -/
def V3.fromArgsKwargs (v : V3 α) (view : ArgsView α) (input : α) (st : VState α) :
    ValResult α (List α × Dict α) × VState α :=
  let r1 := v.argLoop view input (st.validateByAliasOr v.byAlias) (st.validateByNameOr v.byName) 0
    (v.params.filter fun p => !p.mode.variadic) ⟨[], [], [], [], st⟩
  match r1.1 with
  | .error e => (.error e, r1.2.st)
  | .ok () =>
    let r2 := v.surplusPart view r1.2
    match r2.1 with
    | .error e => (.error e, r2.2.st)
    | .ok () =>
      let r3 := v.surplusKwPart view r2.2
      match r3.1 with
      | .error e => (.error e, r3.2.st)
      | .ok rest =>
        let r4 := v.unpackedPart rest r3.2
        match r4.1 with
        | .error e => (.error e, r4.2.st)
        | .ok () => finish r4.2

/-- `ArgumentsV3Validator::validate`, `src/validators/arguments_v3.rs:759-777`. -/
def V3.validate (v : V3 α) : Validator α (List α × Dict α) := fun input st =>
  let st := { st with allowPartial := .ofBool false }
  match v.asMapping input with
  | some view => v.fromMapping view input st
  | none =>
    match v.asArgs input with
    | .error e => (.error e, st)
    | .ok view => v.fromArgsKwargs view input st

end PC.ArgsV3
