import Verif.Spec.TemporalTable
import Verif.Props.DateTime

/-
Lemmas for what is taken for dates and times.
-/

namespace PC.Time

theorem matched_ok {β : Type} (e : Exactness) (r : Except TErr β) (v : β) (e' : Exactness) :
    matched e r = .ok (v, e') ↔ r = .ok v ∧ e' = e := by
  cases r <;> simp [matched, Except.map, eq_comm]

theorem parsed_ok {α β : Type} (mk : α → β) (err : String) (o : Option α) (v : β) :
    parsed mk err o = .ok v ↔ ∃ a, o = some a ∧ v = mk a := by
  cases o <;> simp [parsed, eq_comm]

end PC.Time
