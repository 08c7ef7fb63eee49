import Verif.Model.DateTime
import Verif.Spec.DateTime

/-
What is taken of a Python object for a date, a time, a datetime or a timedelta, as tables: one line for each kind of
object. Lines with `lax` are for lax mode only.
-/

namespace PC.Time
open PC.Num PC.Float

/-- A string or bytes with this content. -/
def PyTemporal.HasText (x : PyTemporal) (b : List UInt8) : Prop := x.kind = .str (some b) ∨ x.kind = .bytes b

/-- Not a string, nor bytes. -/
def PyTemporal.NoText (x : PyTemporal) : Prop := (∀ b, x.kind ≠ .str b) ∧ ∀ b, x.kind ≠ .bytes b

/-- What is taken for a date: dates that are not datetimes, texts. -/
inductive AsDate (sp : Speedate) (strict : Bool) : PyTemporal → Either Date → Exactness → Prop
  | date {x r} (h : x.kind = .date true r) : AsDate sp strict x (.py r) .exact
  | sub {x r} (h : x.kind = .date false r) : AsDate sp strict x (.py r) .strict
  | text {x b d} (lax : strict = false) (h : x.HasText b) (hd : sp.parseDate b = some d) :
      AsDate sp strict x (.raw d) .lax

/-- What is taken for a time: times, texts and numbers of seconds other than bools. -/
inductive AsTime (sp : Speedate) (mul : MulMillion) (strict : Bool) : PyTemporal → Either Time → Exactness → Prop
  | time {x r} (h : x.kind = .time true r) : AsTime sp mul strict x (.py r) .exact
  | sub {x r} (h : x.kind = .time false r) : AsTime sp mul strict x (.py r) .strict
  | text {x b t} (lax : strict = false) (h : x.HasText b) (ht : sp.parseTime b = some t) :
      AsTime sp mul strict x (.raw t) .lax
  | int {x : PyTemporal} {n t} (lax : strict = false) (h1 : x.NoText) (h2 : ∀ b, x.kind ≠ .bool b)
      (h3 : ∀ e r, x.kind ≠ .time e r) (hn : x.index = some n) (ht : intAsTime sp n 0 = .ok t) :
      AsTime sp mul strict x t .lax
  | float {x : PyTemporal} {f t} (lax : strict = false) (h1 : x.NoText) (h2 : ∀ b, x.kind ≠ .bool b)
      (h3 : ∀ e r, x.kind ≠ .time e r) (hn : x.index = none) (hf : x.float = some f)
      (ht : floatAsTime sp mul f = .ok t) : AsTime sp mul strict x t .lax

/-- What is taken for a datetime: datetimes, texts, numbers of seconds since the epoch other than bools, and dates. -/
inductive AsDatetime (sp : Speedate) (mul : MulMillion) (strict : Bool) :
    PyTemporal → Either DateTime → Exactness → Prop
  | datetime {x r} (h : x.kind = .datetime true r) : AsDatetime sp mul strict x (.py r) .exact
  | sub {x r} (h : x.kind = .datetime false r) : AsDatetime sp mul strict x (.py r) .strict
  | text {x b t} (lax : strict = false) (h : x.HasText b) (ht : sp.parseDateTime b = some t) :
      AsDatetime sp mul strict x (.raw t) .lax
  | int {x : PyTemporal} {n t} (lax : strict = false) (h1 : x.NoText) (h2 : ∀ b, x.kind ≠ .bool b)
      (h3 : ∀ e r, x.kind ≠ .datetime e r) (hn : x.index = some n) (ht : intAsDatetime sp n 0 = .ok t) :
      AsDatetime sp mul strict x t .lax
  | float {x : PyTemporal} {f t} (lax : strict = false) (h1 : x.NoText) (h2 : ∀ b, x.kind ≠ .bool b)
      (h3 : ∀ e r, x.kind ≠ .datetime e r) (hn : x.index = none) (hf : x.float = some f)
      (ht : floatAsDatetime sp mul f = .ok t) : AsDatetime sp mul strict x t .lax
  | date {x : PyTemporal} {e r d} (lax : strict = false) (h : x.kind = .date e r) (hn : x.index = none)
      (hf : x.float = none) (hr : r.raw = some d) : AsDatetime sp mul strict x (.raw ⟨d, ⟨0, 0, 0, 0, none⟩⟩) .lax

/-- What is taken for a timedelta: timedeltas, texts and numbers of seconds, bools too. -/
inductive AsTimedelta (sp : Speedate) (mul : MulMillion) (strict : Bool) :
    PyTemporal → EitherDelta → Exactness → Prop
  | delta {x d} (h : x.kind = .delta (.exact d)) : AsTimedelta sp mul strict x (.exact d) .exact
  | sub {x d} (h : x.kind = .delta d) (he : ∀ d', d ≠ .exact d') : AsTimedelta sp mul strict x d .strict
  | text {x b d} (lax : strict = false) (h : x.HasText b) (hd : sp.parseDuration b = some d) :
      AsTimedelta sp mul strict x (.raw d) .lax
  | int {x : PyTemporal} {n d} (lax : strict = false) (h1 : x.NoText) (h2 : ∀ d, x.kind ≠ .delta d)
      (hn : x.index = some n) (hd : intAsDuration n = some d) : AsTimedelta sp mul strict x (.raw d) .lax
  | float {x : PyTemporal} {f d} (lax : strict = false) (h1 : x.NoText) (h2 : ∀ d, x.kind ≠ .delta d)
      (hn : x.index = none) (hf : x.float = some f) (hd : floatAsDuration mul f = some d) :
      AsTimedelta sp mul strict x (.raw d) .lax

/-- The errors of a reader whose class is called so. -/
def readerErrors (name : String) : List String := [name ++ "_type", name ++ "_parsing", "string_unicode"]

end PC.Time
