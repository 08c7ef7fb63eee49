import Verif.Model.DupKeys

/-
What C117 says about JSON objects in which a key occurs more than once.
-/

namespace PC.DupKeys

variable {δ κ ω ε : Type}

/-- The validator accepts the value. -/
def Ok (f : Val δ ω ε) (v : δ) : Prop := ∃ w, f v = .ok w

/-- Two keys that the validator of keys makes the same are the same. -/
def Apart (fk : Val String κ ε) (pairs : List (String × δ)) : Prop :=
  ∀ p ∈ pairs, ∀ q ∈ pairs, ∀ k, fk p.1 = .ok k → fk q.1 = .ok k → p.1 = q.1

/-- The claim that a JSON object is validated as the dict that Python reads in it. -/
def AsPython {ρ : Type} (validate : View δ → ρ) : Prop :=
  ∀ pairs : List (String × δ), validate (jsonView pairs) = validate (pyView (pyOf pairs))

/-- The errors of one pair. -/
def pairErrors (fk : Val String κ ε) (fv : Val δ ω ε) (p : String × δ) : List (Line ε) :=
  (match fk p.1 with
    | .error es => es.map fun e => (e.under .keyMark).under (.key p.1)
    | .ok _ => []) ++
  (match fv p.2 with
    | .error es => es.map (Line.under (.key p.1))
    | .ok _ => [])

/-- What one pair adds to the output. -/
def pairOut (fk : Val String κ ε) (fv : Val δ ω ε) (p : String × δ) : Option (κ × ω) :=
  match fk p.1, fv p.2 with
  | .ok k, .ok w => some (k, w)
  | _, _ => none

/-- Validators that refuse say why. -/
def Says (f : Val δ ω ε) : Prop := ∀ v es, f v = .error es → es ≠ []

/-- The errors of one field: the last value of its key counts. -/
def fieldErrors (missing : ε) (pairs : List (String × δ)) (f : Field δ ω ε) : List (Line ε) :=
  match pairs.reverse.lookup f.name with
  | none => [⟨[.key f.name], missing⟩]
  | some v =>
    match f.val v with
    | .ok _ => []
    | .error es => es.map (Line.under (.key f.name))

/-- The errors of one pair that is no field. -/
def itemErrors (forbidden : ε) (x : Extra δ ω ε) (p : String × δ) : List (Line ε) :=
  match x with
  | .ignore => []
  | .forbid => [⟨[.key p.1], forbidden⟩]
  | .allow ev =>
    match ev p.2 with
    | .ok _ => []
    | .error es => es.map (Line.under (.key p.1))

/-- All errors of a model: those of the fields in their order, then those of every pair whose key is no field's name. -/
def modelErrors (missing forbidden : ε) (fs : List (Field δ ω ε)) (x : Extra δ ω ε) (pairs : List (String × δ)) :
    List (Line ε) :=
  fs.flatMap (fieldErrors missing pairs) ++
    (pairs.filter fun p => !(fs.map Field.name).contains p.1).flatMap (itemErrors forbidden x)

end PC.DupKeys
