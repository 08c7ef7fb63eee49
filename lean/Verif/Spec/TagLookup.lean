import Verif.Model.TagLookup
import Verif.Spec.Literal

/-
What C107 says a tagged union should do.
-/

namespace PC.TagLookup
open PC.Lit

/-- `i` is the last choice whose key prints as `s`. -/
def LastPrinting (str : α → Text) (keys : List α) (s : Text) (i : Nat) : Prop :=
  ∃ k, keys[i]? = some k ∧ str k = s ∧ ∀ j k', i < j → keys[j]? = some k' → str k' ≠ s

/-- The keys are told apart by what they print as. -/
def PrintApart (str : α → Text) (keys : List α) : Prop :=
  ∀ (i j : Nat) (ki kj : α), keys[i]? = some ki → keys[j]? = some kj → str ki = str kj → i = j

/-- A key that equals the tag prints as the tag does. -/
def PrintAlike (o : PyOps α) (str : α → Text) (keys : List α) (tag : α) : Prop :=
  ∀ k ∈ keys, Matches o k tag → str k = str tag

/-- The discriminator says that the value has the tag `t`. -/
inductive HasTag : Disc α → α → α → Prop where
  | item {isDict item attr v t} : isDict v = true → item v = .ok (some t) →
      HasTag (.path isDict item attr) v t
  | attr {isDict item attr v t} : isDict v = false → attr v = .ok (some t) →
      HasTag (.path isDict item attr) v t
  | func {call v t} : call v = .ok t → HasTag (.func call) v t

/-- The claim in full: a value is serialised by the choice that its tag would validate it with. -/
def SameChoice (o : PyOps α) (str : α → Text) (keys : List α) (tag : α) : Prop :=
  ∀ i, valIndex o keys tag = some i → serIndex str keys tag = some i

end PC.TagLookup
