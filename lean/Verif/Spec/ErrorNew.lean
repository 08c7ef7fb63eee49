import Verif.Model.Report
import Mathlib.Data.List.Forall2

/-
What C108 says of errors made from a name and a context, and of reports that fail.
-/

namespace PC.Report
open PC.Infer (Text)
open PC.JsonText (Doc)

/-- The object is an integer, or another object that gives one. -/
def GivesInt (E : Env) (o : Obj) (i : Int) : Prop :=
  o = .int i ∨ ∃ n, o = .other n ∧ E.otherInt n = some i

/-- The object is a string, or another object that gives one. -/
def GivesText (E : Env) (o : Obj) (t : Text) : Prop :=
  o = .str t ∨ ∃ n, o = .other n ∧ E.otherStr n = some t

/-- The object is a float, an integer that is not too large for one, or another object that gives one. -/
def GivesFloat (E : Env) (o : Obj) (f : PC.Float.F64) : Prop :=
  o = .float f ∨ (∃ i, o = .int i ∧ E.toFloat i = some f) ∨ ∃ n, o = .other n ∧ E.otherFloat n = some f

/-- How an object of a context reads as a field of an error type. -/
inductive Reads (E : Env) (o : Obj) : Ty → Val → Prop where
  | text {t} : GivesText E o t → Reads E o .text (.text t)
  | nat {n : Nat} : GivesInt E o n → n < 18446744073709551616 → Reads E o .nat (.nat n)
  | noNat : o = .none → Reads E o .optNat (.optNat Option.none)
  | someNat {n : Nat} : GivesInt E o n → n < 18446744073709551616 → Reads E o .optNat (.optNat (some n))
  | int32 {i : Int} : GivesInt E o i → -2147483648 ≤ i → i ≤ 2147483647 → Reads E o .int32 (.int32 i)
  /-- A number is an integer of 64 bits if it can be, -/
  | int {i : Int} : GivesInt E o i → -9223372036854775808 ≤ i → i ≤ 9223372036854775807 →
      Reads E o .number (.number (.int i))
  /-- else a float, -/
  | float {f} : (∀ i, GivesInt E o i → i < -9223372036854775808 ∨ 9223372036854775807 < i) →
      GivesFloat E o f → Reads E o .number (.number (.float f))
  /-- else a text. -/
  | string {t} : (∀ i, GivesInt E o i → i < -9223372036854775808 ∨ 9223372036854775807 < i) →
      (∀ f, ¬ GivesFloat E o f) → GivesText E o t → Reads E o .number (.number (.string t))
  | noObject : o = .none → Reads E o .object (.object Option.none)
  | object : o ≠ .none → Reads E o .object (.object (some o))

/-- The context has the key, and what it stands for reads as a field of the type. -/
def FieldOf (E : Env) (ctx : Option Dict) (f : Text × Ty) (v : Text × Val) : Prop :=
  v.1 = f.1 ∧ ∃ d o, ctx = some d ∧ getItem d (.str f.1) = some o ∧ Reads E o f.2 v.2

/-- What an exception is shown as. -/
inductive ExcShown : Exc → Text → Prop where
  | key {t} : ExcShown (.keyError t) ("KeyError: ".toList ++ t)
  | type {t} : ExcShown (.typeError t) ("TypeError: ".toList ++ t)
  | value {t} : ExcShown (.valueError t) ("ValueError: ".toList ++ t)
  | panic : ExcShown .panic []

/-- Why one error cannot be written as JSON: its message fails, else its input is asked for and cannot be
serialised, else its context. -/
inductive LineFails (E : Env) (inclCtx inclInput : Bool) (t : InputType) (l : Line) : Text → Prop where
  | message {x e} : l.error.message E t = .error x → ExcShown x e → LineFails E inclCtx inclInput t l e
  | input {m e} : l.error.message E t = .ok m → inclInput = true → E.infer l.input = .error e →
      LineFails E inclCtx inclInput t l e
  | context {m c e} : l.error.message E t = .ok m → (inclInput = true → ∃ d, E.infer l.input = .ok d) →
      inclCtx = true → l.error.pyDict = some c → E.inferDict c = .error e →
      LineFails E inclCtx inclInput t l e

end PC.Report
