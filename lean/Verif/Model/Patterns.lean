import Verif.Model.Strings

/-
Model of the build of a string validator and of its pattern, `src/validators/string.rs`.
-/

namespace PC.Pat
open PC.IntParse (trim)

abbrev Text := List Char

/-- What a compiled regular expression says of a text: found or not, or an exception (`none`). -/
abbrev Re := Text → Option Bool

/-- The two engines: `Regex::new` with `is_match` of the crate `regex` (`none`: not a valid expression), and
`re.compile` of Python with `search` (`none`: it raises); `src/validators/string.rs:265-268, 280-287`. -/
structure Engines where
  rust : Text → Option (Text → Bool)
  python : Text → Option Re

/-- The object given as pattern, `src/validators/string.rs:232-241, 250`: an instance of `str` with its content
and what `str()` shows it as (not the same for members of enums), an instance of `re.Pattern` with its attribute
`pattern` (`none`: not a text, as for patterns of bytes) and what it matches, or another object, with an attribute
`pattern` that is a text or not, and what `re.compile` makes of it. -/
inductive Given where
  | str (content shown : Text)
  | compiled (pattern : Option Text) (re : Re)
  | other (pattern : Option Text) (recompiled : Option Re)

/-- Why a schema is refused: `Invalid pattern`, the error of the crate, `Invalid regex engine`, an exception of
`re.compile`; `src/validators/string.rs:239, 266-269`. -/
inductive BuildErr where
  | invalidPattern
  | invalidRegex
  | invalidEngine
  | raised
  deriving DecidableEq

/-- `Pattern`, `src/validators/string.rs:214-224`: the text for error messages, and what it matches. -/
structure Pattern where
  pattern : Text
  re : Re

/-- `Pattern::extract_pattern_str`, `src/validators/string.rs:232-241`. -/
def extractPatternStr : Given → Except BuildErr Text
  | .str _ shown => .ok shown
  | .compiled (some t) _ => .ok t
  | .other (some t) _ => .ok t
  | _ => .error .invalidPattern

/-- `re.compile` of the object given, `src/validators/string.rs:268`. -/
def recompile (E : Engines) : Given → Option Re
  | .str content _ => E.python content
  | .compiled _ re => some re
  | .other _ r => r

/-- `RegexEngine::RUST_REGEX`, `src/validators/string.rs:227`. -/
def rustRegex : Text := "rust-regex".toList

/-- `RegexEngine::PYTHON_RE`, `src/validators/string.rs:228`. -/
def pythonRe : Text := "python-re".toList

/-- `Pattern::compile`, `src/validators/string.rs:243-278`. -/
def compile (E : Engines) (g : Given) (engine : Text) : Except BuildErr Pattern :=
  match extractPatternStr g with
  | .error e => .error e
  | .ok t =>
    match g with
    | .compiled _ re => .ok ⟨t, re⟩
    | _ =>
      if engine = rustRegex then
        match E.rust t with
        | some m => .ok ⟨t, fun s => some (m s)⟩
        | none => .error .invalidRegex
      else if engine = pythonRe then
        match recompile E g with
        | some re => .ok ⟨t, re⟩
        | none => .error .raised
      else .error .invalidEngine

/-- The settings of a string schema, `src/validators/string.rs:152-198`, read from schema or config (C103):
`engine` is `none` if neither has it. -/
structure Opts where
  given : Option Given
  engine : Option Text
  maxLength : Option Nat
  minLength : Option Nat
  stripWhitespace : Bool
  toLower : Bool
  toUpper : Bool

/-- The pattern in `StrConstrainedValidator::build`, `src/validators/string.rs:155-173`: the engine is only looked
at if there is a pattern. -/
def buildPattern (E : Engines) (o : Opts) : Except BuildErr (Option Pattern) :=
  match o.given with
  | none => .ok none
  | some g =>
    match compile E g (o.engine.getD rustRegex) with
    | .ok p => .ok (some p)
    | .error e => .error e

/-- What `StrValidator::build` returns, `src/validators/string.rs:27-38`. -/
inductive Built where
  | plain
  | constrained (pattern : Option Pattern)

/-- `has_constraints_set`, `src/validators/string.rs:202-210`. -/
def hasConstraints (o : Opts) (p : Option Pattern) : Bool :=
  p.isSome || o.maxLength.isSome || o.minLength.isSome || o.stripWhitespace || o.toLower || o.toUpper

/-- `StrValidator::build`, `src/validators/string.rs:22-39`. -/
def build (E : Engines) (o : Opts) : Except BuildErr Built :=
  match buildPattern E o with
  | .error e => .error e
  | .ok p => .ok (if hasConstraints o p then .constrained p else .plain)

/-- The end of a validation of a string: a value, a validation error, or an exception of the pattern. -/
inductive Res where
  | ok (s : Text)
  | tooShort (min : Nat)
  | tooLong (max : Nat)
  | mismatch (pattern : Text)
  | raised
  deriving DecidableEq

/-- The case mappings `str::to_lowercase` and `str::to_uppercase`, `src/validators/string.rs:137-140`. -/
structure Cases where
  lower : Text → Text
  upper : Text → Text

/-- The final conversion, `src/validators/string.rs:137-146`. -/
def convert (C : Cases) (o : Opts) (orig s : Text) : Text :=
  if o.toLower then C.lower s
  else if o.toUpper then C.upper s
  else if o.stripWhitespace then s
  else orig

/-- The pattern test, `src/validators/string.rs:125-135`, and the end. -/
def afterLength (C : Cases) (o : Opts) (p : Option Pattern) (orig s : Text) : Res :=
  match p with
  | none => .ok (convert C o orig s)
  | some p =>
    match p.re s with
    | none => .raised
    | some false => .mismatch p.pattern
    | some true => .ok (convert C o orig s)

/-- The upper bound, `src/validators/string.rs:112-123`, and what follows. -/
def afterMin (C : Cases) (o : Opts) (p : Option Pattern) (orig s : Text) : Res :=
  match o.maxLength with
  | none => afterLength C o p orig s
  | some m => if s.length > m then .tooLong m else afterLength C o p orig s

/-- `StrConstrainedValidator::validate` on the text that the input was read as,
`src/validators/string.rs:88-147`. -/
def checkConstrained (C : Cases) (o : Opts) (p : Option Pattern) (orig : Text) : Res :=
  let s := if o.stripWhitespace then trim orig else orig
  match o.minLength with
  | none => afterMin C o p orig s
  | some m => if s.length < m then .tooShort m else afterMin C o p orig s

/-- `validate` of what was built, on the text that the input was read as, `src/validators/string.rs:44-58, 81-148`. -/
def run (C : Cases) (o : Opts) : Built → Text → Res
  | .plain, orig => .ok orig
  | .constrained p, orig => checkConstrained C o p orig

/-- `validate` on an exact `str` with lone surrogates, which is not Unicode text: whether it is accepted, unchanged.
The plain validator passes the object on, `src/validators/string.rs:51-57` and `src/input/input_python.rs:149-151`;
the other asks for its content, `src/validators/string.rs:91`, and reports `string_unicode`. -/
def acceptsBroken : Built → Bool
  | .plain => true
  | .constrained _ => false

end PC.Pat
