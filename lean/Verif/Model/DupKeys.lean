/-
Model of how JSON objects in which a key occurs more than once are validated: `src/input/input_json.rs`,
`src/lookup_key.rs`, `src/validators/dict.rs`, `src/validators/model_fields.rs`. Values, outputs and errors are
parameters; validators are functions that accept or give errors (none that omit, raise or keep a state; no partial mode).
-/

namespace PC.DupKeys

variable {δ κ ω ε : Type}

/-- `PyDict::set_item`, as in `src/validators/dict.rs:150-152`: a key that is there keeps its place. -/
def setItem [DecidableEq κ] : List (κ × ω) → κ → ω → List (κ × ω)
  | [], k, v => [(k, v)]
  | (k', v') :: rest, k, v => if k' = k then (k', v) :: rest else (k', v') :: setItem rest k v

/-- The dict that Python's `json.loads` and `from_json` (`src/lib.rs:47-69`, `catch_duplicate_keys: false`) make of the
pairs of a JSON object, set one after the other; also `as_kwargs`, `src/input/input_json.rs:61-74`. -/
def pyOf (pairs : List (String × δ)) : List (String × δ) := pairs.foldl (fun d p => setItem d p.1 p.2) []

/-- One part of a location, `LocItem`, `src/errors/location.rs`: a key, or the mark `[key]` of `src/validators/dict.rs:124`. -/
inductive Loc where
  | key (k : String)
  | keyMark
  deriving DecidableEq, Repr

/-- A line error, `ValLineError`, `src/errors/line_error.rs:100-108`: its location and what it says; the input is left out. -/
structure Line (ε : Type) where
  loc : List Loc
  says : ε
  deriving DecidableEq, Repr

/-- A validator (`src/validators/mod.rs`) that accepts or gives line errors. -/
abbrev Val (δ ω ε : Type) := δ → Except (List (Line ε)) ω

/-- `with_outer_location`, `src/errors/line_error.rs:146-149`. -/
def Line.under (l : Loc) (e : Line ε) : Line ε := { e with loc := l :: e.loc }

/-- What validators see of an object: `get_item` and `iterate` of `ValidatedDict`,
`src/input/input_abstract.rs:238-260`. -/
structure View (δ : Type) where
  get : String → Option δ
  items : List (String × δ)

/-- A JSON object: `json_get` finds the last pair, `src/lookup_key.rs:261-276`, while `iterate` gives every pair,
`src/input/input_json.rs:564-569`. -/
def jsonView (pairs : List (String × δ)) : View δ := ⟨fun k => pairs.reverse.lookup k, pairs⟩

/-- A Python dict, `src/input/input_python.rs:825-870`. -/
def pyView (d : List (String × δ)) : View δ := ⟨fun k => d.lookup k, d⟩

/-- The loop of `ValidateToDict::consume_iterator`, `src/validators/dict.rs:110-155`. -/
def dictLoop [DecidableEq κ] (fk : Val String κ ε) (fv : Val δ ω ε) :
    List (String × δ) → List (κ × ω) → List (Line ε) → List (κ × ω) × List (Line ε)
  | [], out, errs => (out, errs)
  | (k, v) :: rest, out, errs =>
    match fk k with
    | .error es =>
      let errs := errs ++ es.map fun e => (e.under .keyMark).under (.key k)
      match fv v with
      | .error es => dictLoop fk fv rest out (errs ++ es.map (Line.under (.key k)))
      | .ok _ => dictLoop fk fv rest out errs
    | .ok k' =>
      match fv v with
      | .error es => dictLoop fk fv rest out (errs ++ es.map (Line.under (.key k)))
      | .ok w => dictLoop fk fv rest (setItem out k' w) errs

/-- `DictValidator::validate`, `src/validators/dict.rs:68-85,156-163`; `tooFew` and `tooMany` are what
`length_check!` says. The length is that of the output. -/
def validateDict [DecidableEq κ] (fk : Val String κ ε) (fv : Val δ ω ε) (min max : Option Nat) (tooFew tooMany : ε)
    (x : View δ) : Except (List (Line ε)) (List (κ × ω)) :=
  match dictLoop fk fv x.items [] [] with
  | (out, []) =>
    if min.any fun m => out.length < m then .error [⟨[], tooFew⟩]
    else if max.any fun m => m < out.length then .error [⟨[], tooMany⟩]
    else .ok out
  | (_, errs) => .error errs

/-- A field of a model, `src/validators/model_fields.rs:22-30`, looked up by its name (no alias, no default). -/
structure Field (δ ω ε : Type) where
  name : String
  val : Val δ ω ε

/-- `ExtraBehavior`, with the validator of extra items, `src/build_tools.rs`; without one the value is kept. -/
inductive Extra (δ ω ε : Type) where
  | ignore
  | forbid
  | allow (v : Val δ ω ε)

/-- The loop over the fields, `src/validators/model_fields.rs:180-247`: the values, the keys used and the errors. -/
def fieldLoop (missing : ε) (get : String → Option δ) :
    List (Field δ ω ε) → List (String × ω) × List String × List (Line ε)
  | [] => ([], [], [])
  | f :: fs =>
    let r := fieldLoop missing get fs
    match get f.name with
    | none => (r.1, r.2.1, ⟨[.key f.name], missing⟩ :: r.2.2)
    | some v =>
      match f.val v with
      | .ok w => ((f.name, w) :: r.1, f.name :: r.2.1, r.2.2)
      | .error es => (r.1, f.name :: r.2.1, es.map (Line.under (.key f.name)) ++ r.2.2)

/-- The loop of `ValidateToModelExtra::consume_iterator`, `src/validators/model_fields.rs:268-346`. -/
def extraLoop (forbidden : ε) (used : List String) (x : Extra δ ω ε) :
    List (String × δ) → List (String × ω) → List (Line ε) → List (String × ω) × List (Line ε)
  | [], out, errs => (out, errs)
  | (k, v) :: rest, out, errs =>
    if used.contains k then extraLoop forbidden used x rest out errs
    else
      match x with
      | .ignore => extraLoop forbidden used x rest out errs
      | .forbid => extraLoop forbidden used x rest out (errs ++ [⟨[.key k], forbidden⟩])
      | .allow ev =>
        match ev v with
        | .ok w => extraLoop forbidden used x rest (setItem out k w) errs
        | .error es => extraLoop forbidden used x rest out (errs ++ es.map (Line.under (.key k)))

/-- `ModelFieldsValidator::validate`, `src/validators/model_fields.rs:123-378`: the fields and the extra items. With
`ignore` the items are not gone through (`model_fields.rs:170-175`). -/
def validateModel (missing forbidden : ε) (fs : List (Field δ ω ε)) (x : Extra δ ω ε) (view : View δ) :
    Except (List (Line ε)) (List (String × ω) × List (String × ω)) :=
  let r := fieldLoop missing view.get fs
  let e := match x with
    | .ignore => ([], [])
    | _ => extraLoop forbidden r.2.1 x view.items [] []
  match r.2.2 ++ e.2 with
  | [] => .ok (r.1, e.1)
  | errs => .error errs

/-- What `validate_iter` goes through for an object, the keys, `src/input/input_json.rs:260-278`. -/
def iterKeys (x : View δ) : List String := x.items.map Prod.fst

end PC.DupKeys
