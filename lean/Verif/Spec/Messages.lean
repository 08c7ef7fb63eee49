import Verif.Model.Messages

/-
What the message of an error should be: the template, read from left to right, with each placeholder
replaced by the value of the context that it names.
-/

namespace PC.Msg

/-- A piece of a template: a character, or a placeholder `{name}`. -/
inductive Tok where
  | ch (c : Char)
  | hole (name : List Char)
  deriving DecidableEq

/-- Reading a template; `open?` is the part of a placeholder's name read so far. -/
def parseGo : List Char → (open? : Option (List Char)) → List Tok
  | [], none => []
  | [], some n => .ch '{' :: n.map .ch
  | c :: cs, none => if c = '{' then parseGo cs (some []) else .ch c :: parseGo cs none
  | c :: cs, some n => if c = '}' then .hole n :: parseGo cs none else parseGo cs (some (n ++ [c]))

/-- The pieces of a template. -/
def parse (tmpl : List Char) : List Tok := parseGo tmpl none

/-- The text of one piece, with the values of the placeholders given by `look`. -/
def fill1 (look : List Char → Option (List Char)) : Tok → List Char
  | .ch c => [c]
  | .hole n => (look n).getD ('{' :: n ++ ['}'])

/-- The text of a template, with the values of the placeholders given by `look`. -/
def fill (look : List Char → Option (List Char)) (ts : List Tok) : List Char := ts.flatMap (fill1 look)

/-- How a value of the context is shown in a message. -/
def showVal : CtxVal → List Char
  | .str s => s
  | .nat n => (toString n).toList
  | .int i => (toString i).toList
  | .num s => s
  | .optNat none => "more".toList
  | .optNat (some n) => (toString n).toList
  | .obj none => "None".toList
  | .obj (some s) => s

/-- The limit in the context that decides between singular and plural. -/
def limit (e : Err) : Option Nat :=
  match (context e).find? (fun p => p.1 ∈ ["min_length".toList, "max_length".toList, "max_digits".toList,
      "decimal_places".toList, "whole_digits".toList]) with
  | some (_, .nat n) => some n
  | _ => none

/-- What a placeholder of the message of `e` stands for: the value of that name in the context;
`expected_plural` is the plural s. -/
def shown (e : Err) (name : List Char) : Option (List Char) :=
  match (context e).lookup name with
  | some v => some (showVal v)
  | none =>
    if name = "expected_plural".toList then
      (limit e).map (fun n => if n = 1 then [] else ['s'])
    else none

/-- The template of an error for a kind of input. -/
def template (e : Err) (t : InputType) : List Char :=
  match e with
  | .customError _ messageTemplate _ => messageTemplate
  | e => match t with
    | .python => templatePython e
    | .json => templateJson e

/-- A template in which every brace belongs to a placeholder. -/
def plain (ts : List Tok) : Bool :=
  ts.all fun
    | .ch c => c != '{'
    | .hole n => !n.contains '{'

/-- No text of the context that is inserted before another one contains an opening brace. -/
def Harmless : Err → Prop
  | .tooShort fieldType _ _ => '{' ∉ fieldType
  | .tooLong fieldType _ _ => '{' ∉ fieldType
  | .bytesInvalidEncoding encoding _ => '{' ∉ encoding
  | .unionTagInvalid discriminator tag _ => '{' ∉ discriminator ∧ '{' ∉ tag
  | .customError _ messageTemplate context =>
    plain (parse messageTemplate) = true ∧ (∀ p ∈ context, '{' ∉ p.1 ∧ '}' ∉ p.1) ∧
      ∀ p ∈ context.dropLast, '{' ∉ p.2
  | _ => True

end PC.Msg
