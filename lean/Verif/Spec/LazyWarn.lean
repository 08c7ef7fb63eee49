import Verif.Model.LazyWarn

/-
What C110 says of the warnings of generators.
-/

namespace PC.LazyWarn
open PC.Filter (FVal Filt indexFilter)
open PC.SerFunction (WarnMode)

variable {α β ε ω : Type}

/-- The items that the filter keeps, with the number of each and what is included and excluded in it. -/
def kept (E : Env α β ε ω) : Nat → List α → List (α × Option FVal × Option FVal)
  | _, [] => []
  | i, x :: xs =>
    match indexFilter E.filter i E.incl E.excl none with
    | .ok (some (ni, ne)) => (x, ni, ne) :: kept E (i + 1) xs
    | _ => kept E (i + 1) xs

/-- No include or exclude is of a wrong type. -/
def FilterFine (E : Env α β ε ω) : Prop := ∀ i, ∃ r, indexFilter E.filter i E.incl E.excl none = .ok r

/-- How an item is serialised. -/
def value (E : Env α β ε ω) (k : α × Option FVal × Option FVal) : Except ε β := (E.ser k.1 k.2.1 k.2.2).1

/-- What an item warns of. -/
def warnsOf (E : Env α β ε ω) (k : α × Option FVal × Option FVal) : List ω := (E.ser k.1 k.2.1 k.2.2).2

/-- What some items warn of, in order. -/
def allWarns (E : Env α β ε ω) (ks : List (α × Option FVal × Option FVal)) : List ω := ks.flatMap (warnsOf E)

/-- What a call does if the warnings so far are `ws` and the item serialises to `v`. -/
inductive CallDoes (E : Env α β ε ω) (ws : List ω) : Except ε β → Out β ε ω → Prop where
  | fails {e} : CallDoes E ws (.error e) ⟨.error (.item e), none⟩
  | silent {b} : E.mode = .none ∨ ws = [] → CallDoes E ws (.ok b) ⟨.ok (some b), none⟩
  | warns {b} : E.mode = .warn → ws ≠ [] → E.raises ws = none → CallDoes E ws (.ok b) ⟨.ok (some b), some ws⟩
  | warningRaises {b e} : E.mode = .warn → ws ≠ [] → E.raises ws = some e →
      CallDoes E ws (.ok b) ⟨.error (.warned e), some ws⟩
  | raises {b} : E.mode = .error → ws ≠ [] → CallDoes E ws (.ok b) ⟨.error (.serError ws), none⟩

/-- The claim that a call warns only of its own item: false. -/
def WarnsOfItsOwn (E : Env α β ε ω) (xs : List α) : Prop :=
  ∀ (n : Nat) (k : α × Option FVal × Option FVal) (b : β), (kept E 0 xs)[n]? = some k → value E k = .ok b →
    CallDoes E (warnsOf E k) (.ok b) (call E ⟨xs.map .ok, 0, []⟩ n)

end PC.LazyWarn
