import Verif.Model.ExclDefault
import Mathlib.Data.List.Forall2

/-
What C115 says about `exclude_defaults`.
-/

namespace PC.ExclDefault

variable {α ε σ : Type}

/-- The default that the value of a field is compared with: that of its schema, also through validator functions, unless
a schema on the way has a serialiser of its own. -/
inductive Compares : Sch α ε σ → Default α ε σ → Prop where
  | default {d s} : Compares (.default false d s) d
  | function {s d} : Compares s d → Compares (.function false s) d

/-- A value that may be left out: it equals the default, which is not made of the data of other fields. -/
def Drops (eq : α → α → Except ε Bool) (f : Fld α ε σ) (st st' : σ) : Prop :=
  ∃ D d, Compares f.sch D ∧ (∀ call, D ≠ .factoryOfData call) ∧ D.produce [] st = (.ok (some d), st') ∧
    eq f.value d = .ok true

/-- A field whose default comes back: the default it is compared with, if any, is its schema's own and a value, or is
made of the data of other fields and so never compared. -/
def Restorable (f : Fld α ε σ) : Prop :=
  ∀ D, Compares f.sch D → (∃ own d s, f.sch = .default own (.value d) s ∧ D = .value d) ∨
    (∃ call, D = .factoryOfData call) ∨ D = .none

/-- The value of a field after dumping and loading: the same, or the default, which it equals. -/
def Back (eq : α → α → Except ε Bool) (f : Fld α ε σ) (nv : String × α) : Prop :=
  nv.1 = f.name ∧ (nv.2 = f.value ∨
    ∃ own d s, f.sch = .default own (.value d) s ∧ nv.2 = d ∧ eq f.value d = .ok true)

/-- The claim that dumping with `exclude_defaults` and loading gives every field a value equal to the old one. -/
def RoundTrips (eq : α → α → Except ε Bool) (missingError : String → ε) (fields : List (Fld α ε σ)) (st : σ) : Prop :=
  ∀ out st', dump eq true fields st = (.ok out, st') →
    ∃ back st'', load missingError fields out [] st' = (.ok back, st'') ∧
      List.Forall₂ (fun f nv => nv.1 = f.name ∧ (nv.2 = f.value ∨ eq f.value nv.2 = .ok true)) fields back

end PC.ExclDefault
