import Verif.Model.JsonSchema

/-
What `Json[T]` promises.
-/

namespace PC.JsonSchema
open PC.In

variable {I V D Err : Type}

/-- States that are not partial. -/
def Whole (s : St I) : Prop := s.st.allowPartial = .off

/-- A pair of a validator (of documents) and a serialiser reads back a value: it writes the value
as a document from which the validator, in any state that is not partial, makes that value. -/
def ReadsBack (val : Val D I V) (ser : Ser V D Err) (mode : Mode) (v : V) : Prop :=
  ∃ d, ser.serde mode v = .ok d ∧ ∀ s : St I, Whole s → (val d s).1 = .ok v

/-- What is assumed of what is not part of the crate: a document that is written is parsed as
that document, and text in a document or in a Python object is seen as its bytes. -/
structure Faithful (E : Env D V) (O : Out V D) (utf8 : List Char → List UInt8)
    (bytesD : D → Match (List UInt8)) (bytesV : V → Match (List UInt8)) : Prop where
  parse_render : ∀ d, E.parse .off (utf8 (O.render d)) = .ok d
  bytes_doc : ∀ t, ∃ e, bytesD (O.doc t) = .ok (utf8 t, e)
  bytes_str : ∀ t, ∃ e, bytesV (O.str t) = .ok (utf8 t, e)

/-- `Json[Json[...[T]...]]`, `n` times: the validator. -/
def nestVal (E : Env D V) (bytesD : D → Match (List UInt8)) (shownD : D → I) (val : Val D I V) :
    Nat → Val D I V
  | 0 => val
  | n + 1 => (JsonV.mk (some (nestVal E bytesD shownD val n))).validate E bytesD shownD

/-- `Json[Json[...[T]...]]`, `n` times: the serialiser with `round_trip=True`. -/
def nestSer (O : Out V D) (inferKey : Mode → V → Except Err (List Char)) (ser : Ser V D Err) :
    Nat → Ser V D Err
  | 0 => ser
  | n + 1 => jsonSer O inferKey true (nestSer O inferKey ser n)

end PC.JsonSchema
