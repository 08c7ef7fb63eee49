import Verif.Model.BuildErr

/-
What C113 says about errors of schemas.
-/

namespace PC.BuildErr

/-- Whether the class a schema is for has its validator already. -/
def Ready (t : String) (prebuilt : Bool) : Prop := (t = "model" ∨ t = "dataclass") ∧ prebuilt = true

mutual
/-- A schema with nothing wrong in it, as far as it is looked at. -/
inductive Sound (known : List String) : Sch → Prop where
  | ready {t prebuilt steps} : Ready t prebuilt → Sound known (.dict (.is t) prebuilt steps)
  | built {t prebuilt steps} : t ∈ known → AllSound known steps → Sound known (.dict (.is t) prebuilt steps)
inductive AllSound (known : List String) : List Step → Prop where
  | nil : AllSound known []
  | own {rest} : AllSound known rest → AllSound known (.own none :: rest)
  | child {l s rest} : Sound known s → AllSound known rest → AllSound known (.child l s :: rest)
end

/-- One place on the way to what is wrong: a schema of a type, or a named field or parameter. -/
inductive Frame where
  | schema (type : String)
  | named (label : String)

/-- How a place is written. -/
def Frame.text : Frame → String
  | .schema t => "Error building \"" ++ t ++ "\" validator"
  | .named l => l

/-- What is wrong with a schema itself. -/
inductive Wrong (known : List String) : Sch → Exc → Prop where
  | notDict {e} : Wrong known (.notDict e) e
  | missing {prebuilt steps} : Wrong known (.dict .missing prebuilt steps) ⟨"KeyError", "'type'"⟩
  | notText {e prebuilt steps} : Wrong known (.dict (.wrong e) prebuilt steps) e
  | invalid {prebuilt steps} : "invalid" ∉ known →
      Wrong known (.dict (.is "invalid") prebuilt steps)
        ⟨"SchemaError", "Cannot construct schema with `InvalidSchema` member."⟩
  | unknown {t prebuilt steps} : t ∉ known → t ≠ "invalid" → ¬ Ready t prebuilt →
      Wrong known (.dict (.is t) prebuilt steps) ⟨"SchemaError", "Unknown schema type: \"" ++ t ++ "\""⟩

/-- The first thing wrong in a schema is `e`, reached through these places, outermost first. -/
inductive FirstWrong (known : List String) : Sch → List Frame → Exc → Prop where
  | here {s e} : Wrong known s e → FirstWrong known s [] e
  | own {t prebuilt before e after} : t ∈ known → ¬ Ready t prebuilt → AllSound known before →
      FirstWrong known (.dict (.is t) prebuilt (before ++ .own (some e) :: after)) [.schema t] e
  | inside {t prebuilt before l s after fs e} : t ∈ known → ¬ Ready t prebuilt → AllSound known before →
      FirstWrong known s fs e →
      FirstWrong known (.dict (.is t) prebuilt (before ++ .child l s :: after))
        (.schema t :: (l.map Frame.named).toList ++ fs) e

/-- The exception raised for `e` reached through these places. -/
def report : List Frame → Exc → Exc
  | [], e => e
  | f :: fs, e => ⟨"SchemaError", f.text ++ ":\n  " ++ (report fs e).show⟩

end PC.BuildErr
