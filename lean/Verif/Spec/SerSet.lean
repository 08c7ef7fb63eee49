import Verif.Model.SerSet

/-
What C114 says about serialised sets.
-/

namespace PC.SerSet

variable {α β δ ε σ : Type}

/-- The items serialised one after the other, each once, the state passed on. -/
inductive Each (item : α → σ → Except ε β × σ) : List α → σ → List β → σ → Prop where
  | nil {st} : Each item [] st [] st
  | cons {x xs b bs st st1 st2} : item x st = (.ok b, st1) → Each item xs st1 bs st2 → Each item (x :: xs) st (b :: bs) st2

/-- `os` are the different ones among `bs`. -/
structure Different (eq : β → β → Bool) (bs os : List β) : Prop where
  among : os.Sublist bs
  none_twice : os.Pairwise fun a b => eq b a = false
  none_lost : ∀ b ∈ bs, b ∈ os ∨ ∃ o ∈ os, eq b o = true

/-- The claim that both modes give as many items as the set has. -/
def KeepsSize (I : Items β ε) (k : Kind) (item : α → σ → Except ε β × σ) (fallback : Val α → σ → Except ε β × σ) : Prop :=
  ∀ xs st o st', toPython I k item fallback .python (.set k xs) st = (.ok o, st') →
    ∃ os, o = .set k os ∧ os.length = xs.length

end PC.SerSet
