import Verif.Model.Info
import Verif.Spec.Fields

/-
C96: what the functions of a schema are told about the field they validate.
-/

namespace PC.Info
open PC.Fields PC.Dc PC.Comb
variable {α : Type}

/-- The state tells the field's name and fields of a dict, all among `names`. -/
def Tells (names : List String) (field : String) (st : VState α) : Prop :=
  st.extra.fieldName = some field ∧ ∃ d : Dict α, st.extra.data = some d ∧ ∀ kv ∈ d, kv.1 ∈ names

/-- The state tells fields of a dict, all among `names`. -/
def TellsData (names : List String) (st : VState α) : Prop :=
  ∃ d : Dict α, st.extra.data = some d ∧ ∀ kv ∈ d, kv.1 ∈ names

/-- The same field but for what its validator does when it is told another name, or other fields than those of `names`. -/
structure SameField (names : List String) (f g : Field α) : Prop where
  eq : g = { f with run := g.run, dflt := g.dflt }
  run : ∀ x st, Tells names f.name st → g.run x st = f.run x st
  dflt : ∀ l st, TellsData names st → g.dflt l st = f.dflt l st

/-- The same fields but for what their validators do when they are told another name than their own, or other fields than
those before them. -/
inductive SameFields : List String → List (Field α) → List (Field α) → Prop where
  | nil (names : List String) : SameFields names [] []
  | cons {names : List String} {f g : Field α} {fs gs : List (Field α)} : SameField names f g →
    SameFields (names ++ [f.name]) fs gs → SameFields names (f :: fs) (g :: gs)

/-- What later fields of a dataclass are told of a field: its name, unless it is an init-only one. -/
def told (f : DcField α) : List String := if f.initOnly then [] else [f.name]

/-- The same field of a dataclass but for what its validator does when it is told otherwise. -/
structure SameDcField (names : List String) (f g : DcField α) : Prop where
  eq : g = { f with run := g.run, dflt := g.dflt }
  run : ∀ x st, Tells names f.name st → g.run x st = f.run x st
  dflt : ∀ l st, TellsData names st → g.dflt l st = f.dflt l st

/-- The same fields of a dataclass but for what their validators do when they are told otherwise. -/
inductive SameDcFields : List String → List (DcField α) → List (DcField α) → Prop where
  | nil (names : List String) : SameDcFields names [] []
  | cons {names : List String} {f g : DcField α} {fs gs : List (DcField α)} : SameDcField names f g →
    SameDcFields (names ++ told f) fs gs → SameDcFields names (f :: fs) (g :: gs)

/-- The entries of a dict for some names. -/
def Dict.only (names : List String) (d : Dict α) : Dict α := d.filter fun kv => decide (kv.1 ∈ names)

/-- The state that tells a field its name and the fields validated so far. -/
def tell (field : String) (data : Dict α) (st : VState α) : VState α :=
  { st with extra := { st.extra with data := some data, fieldName := some field } }

/-- The state that tells the fields validated so far; the name stays that of the field around the model, if any. -/
def tellData (data : Dict α) (st : VState α) : VState α :=
  { st with extra := { st.extra with data := some data } }

/-- The value, if there is one. -/
def valueOf {β : Type} (r : ValResult α β) : Option β :=
  match r with
  | .ok v => some v
  | .error _ => none

end PC.Info
