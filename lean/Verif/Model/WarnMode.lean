/-
Model of what the option `warnings` of `to_python` and `to_json` does: `CollectWarnings` (`src/serializers/extra.rs:344-476`)
and the places where it is written and read. Serialisers are programs that register warnings, ask whether to fall back to
inference, and call functions given as `wrap` serialisers, which get a handler with a copy of the warnings so far
(`src/serializers/type_serializers/function.rs:438-524`).
-/

namespace PC.WarnMode

abbrev Text := List Char

/-- `WarningsMode`, `src/serializers/extra.rs:344-349`. -/
inductive Mode where
  | none
  | warn
  | error
  deriving DecidableEq, Repr

/-- Exceptions: `PydanticSerializationError`, the `ValueError` of `CString::new` for a text with a NUL, the warning itself
if the filter of Python makes it an exception, and those of the serialisers and functions. -/
inductive Exc where
  | serError (message : Text)
  | nul
  | warned (message : Text)
  | other (n : Nat)
  deriving DecidableEq, Repr

mutual

/-- A serialisation, as far as warnings go: `register_warning` (`src/serializers/extra.rs:406-410`), `on_fallback_py` and
`on_fallback_ser` (`src/serializers/extra.rs:412-446`) for a value that is `None` or not, with `check` on or off, going on
with whether they allow it, and the call of a `wrap` function. Warnings are their `repr`. -/
inductive Prog (V : Type) where
  | ret (r : Except Exc V)
  | register (w : Text) (k : Prog V)
  | fallback (isNone check : Bool) (w : Text) (k : Bool → Prog V)
  | wrap (body : Body V) (k : Except Exc V → Prog V)

/-- A `wrap` function, as far as its handler is concerned: it calls it, any number of times, and goes on with the value or
the exception, which it may catch; `src/serializers/type_serializers/function.rs:488-524`. -/
inductive Body (V : Type) where
  | ret (r : Except Exc V)
  | call (inner : Prog V) (k : Except Exc V → Body V)

end

/-- `CollectWarnings::register_warning`, `src/serializers/extra.rs:406-410`; `fallback_warning`, `src/serializers/
extra.rs:448-455`, asks the same. -/
def push (m : Mode) (ws : List Text) (w : Text) : List Text := if m = .none then ws else ws ++ [w]

/-- `[String]::join`, used at `src/serializers/extra.rs:469`. -/
def join (sep : Text) : List Text → Text
  | [] => []
  | [w] => w
  | w :: ws => w ++ sep ++ join sep ws

/-- The text of `final_check`, `src/serializers/extra.rs:467-469`. -/
def message (ws : List Text) : Text := "Pydantic serializer warnings:\n  ".toList ++ join "\n  ".toList ws

/-- `CollectWarnings::final_check`, `src/serializers/extra.rs:457-476`, and the warnings issued. `filter` says which
warnings Python makes exceptions. Simplification: it is the same throughout. -/
def finalCheck (filter : Text → Bool) (m : Mode) (ws : List Text) : Except Exc Unit × List Text :=
  if m = .none then (.ok (), [])
  else if ws.isEmpty then (.ok (), [])
  else if m = .warn then
    if '\x00' ∈ message ws then (.error .nul, [])
    else if filter (message ws) then (.error (.warned (message ws)), [])
    else (.ok (), [message ws])
  else (.error (.serError (message ws)), [])

/-- The value, unless `final_check` raises: `src/serializers/mod.rs:152-153,200-210`, `src/serializers/type_serializers/
function.rs:510-522`. -/
def checked {V : Type} (filter : Text → Bool) (m : Mode) (r : Except Exc V) (ws : List Text) : Except Exc V × List Text :=
  match r with
  | .error e => (.error e, [])
  | .ok v =>
    match finalCheck filter m ws with
    | (.ok (), out) => (.ok v, out)
    | (.error e, out) => (.error e, out)

mutual

/-- Running a serialisation with the warnings so far: the outcome, the warnings then, and those issued meanwhile. -/
def run {V : Type} (filter : Text → Bool) (m : Mode) : Prog V → List Text → Except Exc V × List Text × List Text
  | .ret r, ws => (r, ws, [])
  | .register w k, ws => run filter m k (push m ws w)
  | .fallback isNone check w k, ws =>
    if isNone then run filter m (k true) ws
    else if check then run filter m (k false) ws
    else run filter m (k true) (push m ws w)
  | .wrap body k, ws =>
    let b := runBody filter m body ws
    let o := run filter m (k b.1) ws
    (o.1, o.2.1, b.2 ++ o.2.2)

/-- Running a `wrap` function: the handler has its own copy of the warnings, kept from one call to the next
(`ExtraOwned::new`, `src/serializers/extra.rs:250-270`), and checks them after each call (`src/serializers/type_serializers/
function.rs:510-522`). -/
def runBody {V : Type} (filter : Text → Bool) (m : Mode) : Body V → List Text → Except Exc V × List Text
  | .ret r, _ => (r, [])
  | .call inner k, ws =>
    let i := run filter m inner ws
    let c := checked filter m i.1 i.2.1
    let o := runBody filter m (k c.1) i.2.1
    (o.1, i.2.2 ++ c.2 ++ o.2)

end

/-- `SchemaSerializer::to_python` and `to_json`, `src/serializers/mod.rs:112-215`: the outcome, and the warnings issued. -/
def serialize {V : Type} (filter : Text → Bool) (m : Mode) (p : Prog V) : Except Exc V × List Text :=
  let o := run filter m p []
  let c := checked filter m o.1 o.2.1
  (c.1, o.2.2 ++ c.2)

end PC.WarnMode
