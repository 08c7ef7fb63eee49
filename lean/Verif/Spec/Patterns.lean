import Verif.Model.Patterns
import Verif.Props.Strings

/-
What C109 says a string schema with a pattern means.
-/

namespace PC.Pat

/-- What a pattern means: the text shown in errors, and what it matches. -/
inductive Means (E : Engines) : Given → Text → Text → Re → Prop where
  /-- A compiled pattern is Python's, with its flags, whatever engine is named. -/
  | compiled {t re engine} : Means E (.compiled (some t) re) engine t re
  /-- A text is read by the engine named. -/
  | rustText {content shown m} : E.rust shown = some m →
      Means E (.str content shown) "rust-regex".toList shown (fun s => some (m s))
  | pythonText {content shown re} : E.python content = some re →
      Means E (.str content shown) "python-re".toList shown re
  /-- Another object with a text `pattern` likewise. -/
  | rustOther {t r m} : E.rust t = some m →
      Means E (.other (some t) r) "rust-regex".toList t (fun s => some (m s))
  | pythonOther {t re} : Means E (.other (some t) (some re)) "python-re".toList t re

/-- The engine a schema names; the default is Rust's. -/
def NamedEngine (o : Opts) (e : Text) : Prop :=
  o.engine = some e ∨ (o.engine = none ∧ e = "rust-regex".toList)

/-- The pattern of a schema, if it has one, with its meaning. -/
def PatternOf (E : Engines) (o : Opts) (p : Option Pattern) : Prop :=
  (o.given = none ∧ p = none) ∨
  ∃ g e q, o.given = some g ∧ NamedEngine o e ∧ p = some q ∧ Means E g e q.pattern q.re

/-- The outcome of a validation as the schema reads: the text is stripped; too short, too long, not matching are
tried in this order; the result is case-mapped. -/
inductive Outcome (C : Cases) (o : Opts) (p : Option Pattern) (orig : Text) : Res → Prop where
  | tooShort {t m} : Str.stripped o.stripWhitespace orig t → o.minLength = some m → t.length < m →
      Outcome C o p orig (.tooShort m)
  | tooLong {t m} : Str.stripped o.stripWhitespace orig t → (∀ m, o.minLength = some m → m ≤ t.length) →
      o.maxLength = some m → m < t.length → Outcome C o p orig (.tooLong m)
  | raised {t q} : Str.stripped o.stripWhitespace orig t → Str.InBounds o.minLength o.maxLength t →
      p = some q → q.re t = none → Outcome C o p orig .raised
  | mismatch {t q} : Str.stripped o.stripWhitespace orig t → Str.InBounds o.minLength o.maxLength t →
      p = some q → q.re t = some false → Outcome C o p orig (.mismatch q.pattern)
  | ok {t} : Str.stripped o.stripWhitespace orig t → Str.InBounds o.minLength o.maxLength t →
      (∀ q, p = some q → q.re t = some true) →
      Outcome C o p orig (.ok (if o.toLower then C.lower t else if o.toUpper then C.upper t else t))

/-- The claim that a pattern given as text means what the text says: false for texts that `str()` shows
differently. -/
def TextMeansItself (E : Engines) (content shown : Text) : Prop :=
  ∀ m, E.rust content = some m → ∃ p, compile E (.str content shown) rustRegex = .ok p ∧ ∀ s, p.re s = some (m s)

end PC.Pat
